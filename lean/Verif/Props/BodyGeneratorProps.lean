import Verif.JsonUtils
import Verif.PathLemmas

/-
  C37: applying generators to a JSON body.
-/

set_option autoImplicit false

namespace Verif
namespace BodyGeneratorProps
open Path JsonUtils

/-! ### Specification: locations in a document -/

/-- A step into a document: a key of an object, or an index of an array. -/
inductive Seg where
  | key (k : Str)
  | idx (i : Nat)

/-- The value at a location. -/
def getAt : List Seg → Json → Option Json
  | [], j => some j
  | .key k :: p, .obj es => (Json.lookup k es).bind (getAt p)
  | .idx i :: p, .arr l => l[i]?.bind (getAt p)
  | _ :: _, _ => none

/-- A path token addresses a step. -/
def tokenAddresses : PathToken → Seg → Prop
  | .field n, .key k => n = k
  | .index i, .idx j => i = j
  | .star, .key _ => True
  | .starIndex, .idx _ => True
  | _, _ => False

/-- The tokens after the root address a location: token by token. -/
def Addresses : List PathToken → List Seg → Prop
  | [], [] => True
  | t :: ts, s :: ss => tokenAddresses t s ∧ Addresses ts ss
  | _, _ => False

/-- What is left of a value when its children are ignored: a scalar, the length of an array, or the keys of an
object. -/
inductive Shape where
  | scalar (j : Json)
  | array (length : Nat)
  | object (keys : List Str)

def shape : Json → Shape
  | .arr l => .array l.length
  | .obj es => .object (es.map (·.1))
  | j => .scalar j

/-- A step that survives being written into a JSON pointer without escaping. -/
def PlainSeg : Seg → Prop
  | .key k => '/' ∉ k ∧ '~' ∉ k ∧ k ≠ []
  | .idx i => i < usizeLim

/-- A document all of whose keys are non-empty and free of '/' and '~' (and whose arrays fit the address
space). -/
def Tame (j : Json) : Prop := ∀ loc, (getAt loc j).isSome → ∀ s ∈ loc, PlainSeg s

/-! ### Resolution of a path -/

/-- The name of a step in a pointer. -/
def segName : Seg → Str
  | .key k => k
  | .idx i => natStr i

/-- The locations addressed by tokens in a document (helper). -/
def resolveLocs : List PathToken → Json → List (List Seg)
  | [], _ => [[]]
  | .field n :: ts, .obj es => match Json.lookup n es with
    | some v => (resolveLocs ts v).map (.key n :: ·)
    | none => []
  | .index i :: ts, .arr l => match l[i]? with
    | some v => (resolveLocs ts v).map (.idx i :: ·)
    | none => []
  | .star :: ts, .obj es => es.flatMap (fun e => (resolveLocs ts e.2).map (.key e.1 :: ·))
  | .starIndex :: ts, .arr l => l.zipIdx.flatMap (fun e => (resolveLocs ts e.1).map (.idx e.2 :: ·))
  | _ :: _, _ => []

theorem mem_resolveLocs (ts : List PathToken) : ∀ (j : Json) (loc : List Seg), j.WF →
    (loc ∈ resolveLocs ts j ↔ Addresses ts loc ∧ (getAt loc j).isSome) := by
  induction ts with
  | nil =>
    intro j loc _
    cases loc <;> simp [resolveLocs, Addresses, getAt]
  | cons t ts ih =>
    intro j loc hw
    cases loc with
    | nil =>
      refine ⟨fun h => ?_, fun h => h.1.elim⟩
      exfalso
      cases t <;> cases j <;> simp only [resolveLocs, List.not_mem_nil] at h
      · split at h
        · simp at h
        · exact (List.not_mem_nil h)
      · split at h
        · simp at h
        · exact (List.not_mem_nil h)
      · simp at h
      · simp at h
    | cons s ss =>
      cases j with
      | obj es =>
        have hn := hw.1.nodup
        have hwe := (Json.WFEntries_iff _).1 hw.2
        cases t with
        | field n =>
          simp only [resolveLocs]
          cases s with
          | idx i =>
            simp only [Addresses, tokenAddresses, false_and, iff_false]
            split <;> simp
          | key k =>
            simp only [Addresses, tokenAddresses, getAt]
            cases hl : Json.lookup n es with
            | none =>
              simp only [List.not_mem_nil, false_iff]
              rintro ⟨⟨rfl, _⟩, h⟩
              rw [hl] at h
              simp at h
            | some v =>
              simp only [List.mem_map, List.cons.injEq, Seg.key.injEq]
              constructor
              · rintro ⟨x, hx, rfl, rfl⟩
                rw [hl]
                have := (ih v x (hwe _ (Json.lookup_mem hl))).1 hx
                exact ⟨⟨rfl, this.1⟩, this.2⟩
              · rintro ⟨⟨rfl, h1⟩, h2⟩
                rw [hl] at h2
                exact ⟨ss, (ih v ss (hwe _ (Json.lookup_mem hl))).2 ⟨h1, h2⟩, rfl, rfl⟩
        | star =>
          simp only [resolveLocs, List.mem_flatMap, List.mem_map]
          cases s with
          | idx i => simp [Addresses, tokenAddresses]
          | key k =>
            simp only [Addresses, tokenAddresses, getAt, true_and, List.cons.injEq, Seg.key.injEq]
            constructor
            · rintro ⟨e, he, x, hx, rfl, rfl⟩
              rw [Json.lookup_of_mem hn he]
              have := (ih e.2 x (hwe _ he)).1 hx
              exact this
            · rintro ⟨h1, h2⟩
              cases hl : Json.lookup k es with
              | none => rw [hl] at h2; simp at h2
              | some v =>
                rw [hl] at h2
                exact ⟨(k, v), Json.lookup_mem hl, ss, (ih v ss (hwe _ (Json.lookup_mem hl))).2 ⟨h1, h2⟩, rfl, rfl⟩
        | root => simp [resolveLocs, Addresses, tokenAddresses]
        | index i =>
          cases s <;> simp [resolveLocs, Addresses, tokenAddresses, getAt]
        | starIndex =>
          cases s <;> simp [resolveLocs, Addresses, tokenAddresses, getAt]
      | arr l =>
        have hwe := (Json.WFList_iff _).1 hw
        cases t with
        | index i =>
          simp only [resolveLocs]
          cases s with
          | key k =>
            simp only [Addresses, tokenAddresses, false_and, iff_false]
            split <;> simp
          | idx n =>
            simp only [Addresses, tokenAddresses, getAt]
            cases hl : l[i]? with
            | none =>
              simp only [List.not_mem_nil, false_iff]
              rintro ⟨⟨rfl, _⟩, h⟩
              rw [hl] at h
              simp at h
            | some v =>
              simp only [List.mem_map, List.cons.injEq, Seg.idx.injEq]
              constructor
              · rintro ⟨x, hx, rfl, rfl⟩
                rw [hl]
                have := (ih v x (hwe _ (List.mem_of_getElem? hl))).1 hx
                exact ⟨⟨rfl, this.1⟩, this.2⟩
              · rintro ⟨⟨rfl, h1⟩, h2⟩
                rw [hl] at h2
                exact ⟨ss, (ih v ss (hwe _ (List.mem_of_getElem? hl))).2 ⟨h1, h2⟩, rfl, rfl⟩
        | starIndex =>
          simp only [resolveLocs, List.mem_flatMap, List.mem_map]
          cases s with
          | key k => simp [Addresses, tokenAddresses]
          | idx n =>
            simp only [Addresses, tokenAddresses, getAt, true_and, List.cons.injEq, Seg.idx.injEq]
            constructor
            · rintro ⟨e, he, x, hx, rfl, rfl⟩
              obtain ⟨v, i⟩ := e
              rw [List.mem_zipIdx_iff_getElem?] at he
              simp only at he hx ⊢
              rw [he]
              exact (ih v x (hwe _ (List.mem_of_getElem? he))).1 hx
            · rintro ⟨h1, h2⟩
              cases hl : l[n]? with
              | none => rw [hl] at h2; simp at h2
              | some v =>
                rw [hl] at h2
                exact ⟨(v, n), List.mem_zipIdx_iff_getElem?.2 hl, ss,
                  (ih v ss (hwe _ (List.mem_of_getElem? hl))).2 ⟨h1, h2⟩, rfl, rfl⟩
        | root => simp [resolveLocs, Addresses, tokenAddresses]
        | field i =>
          cases s <;> simp [resolveLocs, Addresses, tokenAddresses, getAt]
        | star =>
          cases s <;> simp [resolveLocs, Addresses, tokenAddresses, getAt]
      | null => cases t <;> cases s <;> simp [resolveLocs, Addresses, tokenAddresses, getAt]
      | bool b => cases t <;> cases s <;> simp [resolveLocs, Addresses, tokenAddresses, getAt]
      | num b => cases t <;> cases s <;> simp [resolveLocs, Addresses, tokenAddresses, getAt]
      | str b => cases t <;> cases s <;> simp [resolveLocs, Addresses, tokenAddresses, getAt]

theorem leavesList_append (n : Nat) (above : List Str) (a b : List PTree) :
    leavesList n above (a ++ b) = leavesList n above a ++ leavesList n above b := by
  induction a with
  | nil => simp [leavesList]
  | cons t ts ih => simp [leavesList, ih]

theorem leaves_node (n : Nat) (above : List Str) (name : Str) (cs : List PTree) :
    leaves n above (.node name cs) = if cs.isEmpty then
        (if !name.isEmpty && decide ((above ++ [name]).length = n) then [above ++ [name]] else [])
      else leavesList n (above ++ [name]) cs := by
  cases cs <;> simp [leaves]

theorem leavesList_flatMap {T : Type} (n : Nat) (above : List Str) (f : T → PTree) (l : List T) :
    leavesList n above (l.map f) = l.flatMap (fun x => leaves n above (f x)) := by
  induction l with
  | nil => simp [leavesList]
  | cons x xs ih => simp [leavesList, ih]

theorem leaves_short (ts : List PathToken) : ∀ (j : Json) (n : Nat) (above : List Str),
    above.length + ts.length < n → leavesList n above (queryGraph ts j) = [] := by
  induction ts with
  | nil => intro j n above _; simp [queryGraph, leavesList]
  | cons t ts ih =>
    intro j n above hn
    simp only [List.length_cons] at hn
    have node : ∀ name v, leaves n above (.node name (queryGraph ts v)) = [] := by
      intro name v
      rw [leaves_node]
      split
      · rw [if_neg]
        simp only [List.length_append, List.length_cons, List.length_nil, Bool.and_eq_true, decide_eq_true_eq]
        omega
      · exact ih v n _ (by simp only [List.length_append, List.length_cons, List.length_nil]; omega)
    cases t with
    | root => simp only [queryGraph]; exact ih j n above (by omega)
    | field k =>
      cases j <;> simp only [queryGraph, leavesList]
      split <;> simp [leavesList, node]
    | index i =>
      cases j <;> simp only [queryGraph, leavesList]
      split
      · simp [leavesList, node]
      · exact ih _ n above (by omega)
    | star =>
      cases j <;> simp only [queryGraph, leavesList]
      rw [leavesList_flatMap]
      simp [node]
    | starIndex =>
      cases j <;> simp only [queryGraph, leavesList]
      rw [leavesList_flatMap]
      simp [node]

theorem tame_key {es : List (Str × Json)} (ht : Tame (.obj es)) {k : Str} {v : Json}
    (h : Json.lookup k es = some v) : PlainSeg (.key k) ∧ Tame v := by
  constructor
  · exact ht [.key k] (by simp [getAt, h]) _ (by simp)
  · intro loc hl s hs
    exact ht (.key k :: loc) (by simpa [getAt, h] using hl) s (List.mem_cons_of_mem _ hs)

theorem tame_idx {l : List Json} (ht : Tame (.arr l)) {i : Nat} {v : Json}
    (h : l[i]? = some v) : PlainSeg (.idx i) ∧ Tame v := by
  constructor
  · exact ht [.idx i] (by simp [getAt, h]) _ (by simp)
  · intro loc hl s hs
    exact ht (.idx i :: loc) (by simpa [getAt, h] using hl) s (List.mem_cons_of_mem _ hs)

/-- The names of a location. -/
def names (loc : List Seg) : List Str := loc.map segName

theorem leaves_eq (ts : List PathToken) (hr : PathToken.root ∉ ts) (hne : ts ≠ []) :
    ∀ (j : Json) (above : List Str), j.WF → Tame j →
    leavesList (above.length + ts.length) above (queryGraph ts j)
      = (resolveLocs ts j).map (fun loc => above ++ names loc) := by
  induction ts with
  | nil => exact absurd rfl hne
  | cons t ts ih =>
    intro j above hw ht
    simp only [List.length_cons]
    have hr' : PathToken.root ∉ ts := fun h => hr (List.mem_cons_of_mem _ h)
    have node : ∀ (s : Seg) (v : Json), PlainSeg s → v.WF → Tame v →
        leaves (above.length + (ts.length + 1)) above (.node (segName s) (queryGraph ts v))
        = (resolveLocs ts v).map (fun loc => above ++ names (s :: loc)) := by
      intro s v hs hwv htv
      have hsn : (segName s).isEmpty = false := by
        cases s with
        | key k =>
          have : k ≠ [] := hs.2.2
          cases k with
          | nil => exact absurd rfl this
          | cons => rfl
        | idx i =>
          simp only [segName]
          have := natStr_ne_nil i
          cases h : natStr i with
          | nil => exact absurd h this
          | cons => rfl
      rw [leaves_node]
      cases ts with
      | nil => simp [queryGraph, resolveLocs, hsn, names]
      | cons t' ts' =>
        have := ih hr' (by simp) v (above ++ [segName s]) hwv htv
        simp only [List.length_append, List.length_cons, List.length_nil] at this ⊢
        have e1 : above.length + (0 + 1) + (ts'.length + 1) = above.length + (ts'.length + 1 + 1) := by omega
        rw [e1] at this
        have e2 : (resolveLocs (t' :: ts') v).map (fun loc => above ++ names (s :: loc))
            = (resolveLocs (t' :: ts') v).map (fun loc => above ++ [segName s] ++ names loc) := by
          apply List.map_congr_left
          intro a _
          simp [names]
        rw [e2, ← this]
        split
        · rename_i he
          rw [List.isEmpty_iff] at he
          rw [he]
          simp only [leavesList]
          rw [if_neg]
          simp only [Bool.and_eq_true, decide_eq_true_eq]
          omega
        · rfl
    cases t with
    | root => exact absurd (List.mem_cons_self) hr
    | field k =>
      cases j <;> simp only [queryGraph, leavesList, resolveLocs, List.map_nil]
      rename_i es
      cases hl : Json.lookup k es with
      | none => simp [leavesList]
      | some v =>
        have hv := tame_key ht hl
        simp only [leavesList, List.append_nil]
        rw [show PTree.node k (queryGraph ts v) = PTree.node (segName (.key k)) (queryGraph ts v) from rfl,
          node (.key k) v hv.1 ((Json.WFEntries_iff _).1 hw.2 _ (Json.lookup_mem hl)) hv.2]
        rw [List.map_map]
        rfl
    | index i =>
      cases j <;> simp only [queryGraph, leavesList, resolveLocs, List.map_nil]
      rename_i l
      cases hl : l[i]? with
      | none =>
        simp only [List.map_nil]
        exact leaves_short ts _ _ _ (by omega)
      | some v =>
        have hv := tame_idx ht hl
        simp only [leavesList, List.append_nil]
        rw [show PTree.node (natStr i) (queryGraph ts v) = PTree.node (segName (.idx i)) (queryGraph ts v) from rfl,
          node (.idx i) v hv.1 ((Json.WFList_iff _).1 hw _ (List.mem_of_getElem? hl)) hv.2]
        rw [List.map_map]
        rfl
    | star =>
      cases j <;> simp only [queryGraph, leavesList, resolveLocs, List.map_nil]
      rename_i es
      rw [leavesList_flatMap, List.map_flatMap, List.flatMap_def, List.flatMap_def]
      congr 1
      apply List.map_congr_left
      intro e he
      have hl := Json.lookup_of_mem (k := e.1) (v := e.2) hw.1.nodup he
      have hv := tame_key ht hl
      rw [show PTree.node e.1 (queryGraph ts e.2) = PTree.node (segName (.key e.1)) (queryGraph ts e.2) from rfl,
        node (.key e.1) e.2 hv.1 ((Json.WFEntries_iff _).1 hw.2 _ he) hv.2, List.map_map]
      rfl
    | starIndex =>
      cases j <;> simp only [queryGraph, leavesList, resolveLocs, List.map_nil]
      rename_i l
      rw [leavesList_flatMap, List.map_flatMap, List.flatMap_def, List.flatMap_def]
      congr 1
      apply List.map_congr_left
      intro e he
      have hl := List.mem_zipIdx_iff_getElem?.1 he
      have hv := tame_idx ht hl
      rw [show PTree.node (natStr e.2) (queryGraph ts e.1) = PTree.node (segName (.idx e.2)) (queryGraph ts e.1) from rfl,
        node (.idx e.2) e.1 hv.1 ((Json.WFList_iff _).1 hw _ (List.mem_of_getElem? hl)) hv.2, List.map_map]
      rfl

/-- The JSON pointer written for a location. -/
def pointer (loc : List Seg) : Str := joinSlash ([] :: names loc)

theorem resolvePath_eq (ts : List PathToken) (hr : PathToken.root ∉ ts) (j : Json) (hw : j.WF) (ht : Tame j) :
    resolvePath j (.root :: ts) = if ts = [] then [] else (resolveLocs ts j).map pointer := by
  unfold resolvePath
  simp only [queryGraph, List.length_cons]
  split
  · rename_i h
    subst h
    simp [queryGraph, leavesList]
  · rename_i h
    have := leaves_eq ts hr h j [[]] hw ht
    simp only [List.length_cons, List.length_nil] at this
    rw [show 0 + 1 + ts.length = ts.length + 1 by omega] at this
    rw [this, List.map_map]
    rfl

/-! ### Following a pointer -/

/-- Updating the value at a location. -/
def updateLoc : List Seg → (Json → Json) → Json → Json
  | [], f, j => f j
  | .key k :: p, f, .obj es => .obj (modifyKey k (updateLoc p f) es)
  | .idx i :: p, f, .arr l => .arr (l.modify i (updateLoc p f))
  | _ :: _, _, j => j

theorem splitSlash_plain (s : Str) (h : '/' ∉ s) : splitSlash s = [s] := by
  induction s with
  | nil => rfl
  | cons c cs ih =>
    have h1 : c ≠ '/' := fun e => h (by rw [e]; exact List.mem_cons_self)
    have h2 : '/' ∉ cs := fun e => h (List.mem_cons_of_mem _ e)
    simp only [splitSlash, if_neg h1, ih h2]

theorem splitSlash_app (s r : Str) (h : '/' ∉ s) : splitSlash (s ++ '/' :: r) = s :: splitSlash r := by
  induction s with
  | nil => simp [splitSlash]
  | cons c cs ih =>
    have h1 : c ≠ '/' := fun e => h (by rw [e]; exact List.mem_cons_self)
    have h2 : '/' ∉ cs := fun e => h (List.mem_cons_of_mem _ e)
    simp only [List.cons_append, splitSlash, if_neg h1, ih h2]

theorem splitSlash_join (l : List Str) (hne : l ≠ []) (h : ∀ s ∈ l, '/' ∉ s) :
    splitSlash (joinSlash l) = l := by
  induction l with
  | nil => exact absurd rfl hne
  | cons s ss ih =>
    cases ss with
    | nil => simp only [joinSlash]; exact splitSlash_plain s (h s (by simp))
    | cons t ts =>
      simp only [joinSlash]
      rw [splitSlash_app _ _ (h s (by simp)), ih (by simp) (fun x hx => h x (List.mem_cons_of_mem _ hx))]

theorem replacePair_plain (x y r : Char) (s : Str) (h : x ∉ s) : replacePair x y r s = s := by
  fun_induction replacePair x y r s with
  | case1 => rfl
  | case2 => rfl
  | case3 c d cs hc ih => exact absurd (by rw [hc.1]; exact List.mem_cons_self) h
  | case4 c d cs hc ih => rw [ih (fun e => h (List.mem_cons_of_mem _ e))]

theorem unescape_plain (s : Str) (h : '~' ∉ s) : unescapeToken s = s := by
  unfold unescapeToken
  rw [replacePair_plain _ _ _ _ h, replacePair_plain _ _ _ _ h]

theorem natStr_no_leading_zero (n : Nat) : ∀ r, natStr n = '0' :: r → r = [] := by
  induction n using Nat.strongRecOn with
  | _ n ih =>
    intro r h
    rw [natStr_eq] at h
    split at h
    · simp at h; exact h.2
    · rename_i hn
      have hlt : n / 10 < n := by omega
      have hne := natStr_ne_nil (n / 10)
      cases hd : natStr (n / 10) with
      | nil => exact absurd hd hne
      | cons c cs =>
        rw [hd] at h
        simp only [List.cons_append, List.cons.injEq] at h
        have := ih (n / 10) hlt cs (by rw [hd, h.1])
        subst this
        -- then natStr (n/10) = "0", so n/10 = 0
        have h0 : natStr (n / 10) = natStr 0 := by rw [hd, h.1]; rfl
        have := natStr_injective h0
        omega

theorem parseIndex_natStr (n : Nat) (h : n < usizeLim) : parseIndex (natStr n) = some n := by
  have hp := parseDigits_natStr h
  unfold parseIndex
  split
  · rename_i r he; exact absurd he (natStr_head_ne_plus n r)
  · rename_i he
    have : natStr n = natStr 0 := by rw [he]; rfl
    have := natStr_injective this
    rw [this]
  · rename_i r hx he
    have := natStr_no_leading_zero n r he
    subst this
    exact absurd rfl hx
  · exact hp

theorem digit_ne {c d : Char} (h : c.isDigit = true) (hd : d.isDigit = false) : c ≠ d := by
  intro e; rw [e, hd] at h; exact absurd h (by simp)

theorem segName_plain (s : Seg) (h : PlainSeg s) : '/' ∉ segName s ∧ '~' ∉ segName s := by
  cases s with
  | key k => exact ⟨h.1, h.2.1⟩
  | idx i =>
    constructor
    · intro hm; exact digit_ne (natStr_digits i _ hm) (by decide) rfl
    · intro hm; exact digit_ne (natStr_digits i _ hm) (by decide) rfl

theorem lookup_modifyKey (k q : Str) (f : Json → Json) (es : List (Str × Json)) :
    Json.lookup q (modifyKey k f es) = if q = k then (Json.lookup q es).map f else Json.lookup q es := by
  induction es with
  | nil => simp [modifyKey, Json.lookup]
  | cons e es ih =>
    obtain ⟨a, v⟩ := e
    unfold modifyKey at ih ⊢
    simp only [List.map_cons]
    by_cases ha : a = k
    · subst ha
      simp only [if_true, Json.lookup]
      by_cases hq : a = q
      · subst hq; simp
      · rw [if_neg hq, if_neg hq, ih]
    · simp only [if_neg ha, Json.lookup]
      by_cases hq : a = q
      · subst hq; simp [ha]
      · rw [if_neg hq, if_neg hq, ih]

theorem keys_modifyKey (k : Str) (f : Json → Json) (es : List (Str × Json)) :
    (modifyKey k f es).map (·.1) = es.map (·.1) := by
  unfold modifyKey
  rw [List.map_map]
  apply List.map_congr_left
  intro e _
  simp only [Function.comp]
  split <;> rfl

theorem modifyKey_congr (k : Str) (f g : Json → Json) (es : List (Str × Json)) (hn : (es.map (·.1)).Nodup)
    (v : Json) (hv : Json.lookup k es = some v) (h : f v = g v) : modifyKey k f es = modifyKey k g es := by
  unfold modifyKey
  apply List.map_congr_left
  intro e he
  by_cases hk : e.1 = k
  · rw [if_pos hk, if_pos hk]
    have := Json.lookup_of_mem (k := e.1) (v := e.2) hn he
    rw [hk, hv] at this
    rw [← Option.some.inj this, h]
  · rw [if_neg hk, if_neg hk]

theorem modify_congr (l : List Json) (i : Nat) (f g : Json → Json) (v : Json) (hv : l[i]? = some v)
    (h : f v = g v) : l.modify i f = l.modify i g := by
  apply List.ext_getElem?
  intro n
  rw [List.getElem?_modify, List.getElem?_modify]
  by_cases hn : i = n
  · subst hn
    simp [hv, h]
  · simp [hn]

theorem updateTokens_eq (loc : List Seg) : ∀ (f : Json → Json) (j : Json), (∀ s ∈ loc, PlainSeg s) → j.WF →
    (getAt loc j).isSome → updateTokens (names loc) f j = updateLoc loc f j := by
  induction loc with
  | nil => intro f j _ _ _; rfl
  | cons s ss ih =>
    intro f j hp hw hg
    have hp' : ∀ s ∈ ss, PlainSeg s := fun x hx => hp x (List.mem_cons_of_mem _ hx)
    cases s with
    | key k =>
      cases j <;> simp only [getAt, Option.isSome_none, Bool.false_eq_true] at hg
      rename_i es
      simp only [names, List.map_cons, segName, updateTokens, updateLoc]
      congr 1
      cases hl : Json.lookup k es with
      | none => rw [hl] at hg; simp at hg
      | some v =>
        rw [hl] at hg
        exact modifyKey_congr k _ _ es hw.1.nodup v hl
          (ih f v hp' ((Json.WFEntries_iff _).1 hw.2 _ (Json.lookup_mem hl)) hg)
    | idx i =>
      cases j <;> simp only [getAt, Option.isSome_none, Bool.false_eq_true] at hg
      rename_i l
      simp only [names, List.map_cons, segName, updateTokens, updateLoc, parseIndex_natStr i (hp (.idx i) (by simp))]
      congr 1
      cases hl : l[i]? with
      | none => rw [hl] at hg; simp at hg
      | some v =>
        rw [hl] at hg
        exact modify_congr l i _ _ v hl (ih f v hp' ((Json.WFList_iff _).1 hw _ (List.mem_of_getElem? hl)) hg)

theorem pointerUpdate_eq (loc : List Seg) (hne : loc ≠ []) (f : Json → Json) (j : Json)
    (hp : ∀ s ∈ loc, PlainSeg s) (hw : j.WF) (hg : (getAt loc j).isSome) :
    pointerUpdate (pointer loc) f j = updateLoc loc f j := by
  have hs : splitSlash (pointer loc) = [] :: names loc := by
    unfold pointer
    apply splitSlash_join _ (by simp)
    intro s hs
    rcases List.mem_cons.1 hs with h | h
    · rw [h]; simp
    · obtain ⟨x, hx, rfl⟩ := List.mem_map.1 h
      exact (segName_plain x (hp x hx)).1
  have hu : (names loc).map unescapeToken = names loc := by
    conv => rhs; rw [← List.map_id (names loc)]
    apply List.map_congr_left
    intro s hs
    obtain ⟨x, hx, rfl⟩ := List.mem_map.1 hs
    exact unescape_plain _ (segName_plain x (hp x hx)).2
  have hh : ∃ r, pointer loc = '/' :: r := by
    cases loc with
    | nil => exact absurd rfl hne
    | cons s ss => exact ⟨_, rfl⟩
  obtain ⟨r, hr⟩ := hh
  unfold pointerUpdate
  rw [hs, List.drop_one, List.tail_cons, hu, hr]
  simp only [List.isEmpty_cons, Bool.false_eq_true, if_false, List.head?_cons, if_true]
  exact updateTokens_eq loc f j hp hw hg

/-! ### Effect of an update -/

theorem getAt_update_below (loc : List Seg) : ∀ (r : List Seg) (f : Json → Json) (j : Json),
    getAt (loc ++ r) (updateLoc loc f j) = (getAt loc j).bind (fun v => getAt r (f v)) := by
  induction loc with
  | nil => intro r f j; rfl
  | cons s ss ih =>
    intro r f j
    cases s with
    | key k =>
      cases j <;> simp only [List.cons_append, updateLoc, getAt, Option.bind_none]
      rw [lookup_modifyKey, if_pos rfl]
      cases Json.lookup k _ <;> simp [ih]
    | idx i =>
      cases j <;> simp only [List.cons_append, updateLoc, getAt, Option.bind_none]
      rw [List.getElem?_modify]
      cases h : (_ : List Json)[i]? <;> simp [ih]

theorem getAt_update_shape (loc : List Seg) : ∀ (loc' : List Seg) (f : Json → Json) (j : Json),
    ¬ loc <+: loc' → (getAt loc' (updateLoc loc f j)).map shape = (getAt loc' j).map shape := by
  induction loc with
  | nil => intro l f j h; exact absurd (List.nil_prefix) h
  | cons s ss ih =>
    intro loc' f j h
    cases loc' with
    | nil =>
      cases s <;> cases j <;> simp [updateLoc, getAt, shape, keys_modifyKey]
    | cons s' ss' =>
      rw [List.cons_prefix_cons] at h
      cases s with
      | key k =>
        cases j with
        | obj es =>
          cases s' with
          | idx i => simp [updateLoc, getAt]
          | key q =>
            simp only [updateLoc, getAt]
            rw [lookup_modifyKey]
            by_cases hq : q = k
            · subst hq
              rw [if_pos rfl]
              have : ¬ ss <+: ss' := fun e => h ⟨rfl, e⟩
              cases Json.lookup q es with
              | none => rfl
              | some v => simpa using ih ss' f v this
            · rw [if_neg hq]
        | _ => rfl
      | idx i =>
        cases j with
        | arr l =>
          cases s' with
          | key i => simp [updateLoc, getAt]
          | idx q =>
            simp only [updateLoc, getAt]
            rw [List.getElem?_modify]
            by_cases hq : i = q
            · subst hq
              have : ¬ ss <+: ss' := fun e => h ⟨rfl, e⟩
              cases l[i]? with
              | none => rfl
              | some v => simpa using ih ss' f v this
            · simp [hq]
        | _ => rfl

theorem getAt_update_ne (loc : List Seg) : ∀ (loc' : List Seg) (f : Json → Json) (j : Json),
    ¬ loc <+: loc' → ¬ loc' <+: loc → getAt loc' (updateLoc loc f j) = getAt loc' j := by
  induction loc with
  | nil => intro l f j h; exact absurd (List.nil_prefix) h
  | cons s ss ih =>
    intro loc' f j h h'
    cases loc' with
    | nil => exact absurd (List.nil_prefix) h'
    | cons s' ss' =>
      rw [List.cons_prefix_cons] at h h'
      cases s with
      | key k =>
        cases j with
        | obj es =>
          cases s' with
          | idx i => simp [updateLoc, getAt]
          | key q =>
            simp only [updateLoc, getAt]
            rw [lookup_modifyKey]
            by_cases hq : q = k
            · subst hq
              rw [if_pos rfl]
              have a1 : ¬ ss <+: ss' := fun e => h ⟨rfl, e⟩
              have a2 : ¬ ss' <+: ss := fun e => h' ⟨rfl, e⟩
              cases Json.lookup q es with
              | none => rfl
              | some v => simpa using ih ss' f v a1 a2
            · rw [if_neg hq]
        | _ => rfl
      | idx i =>
        cases j with
        | arr l =>
          cases s' with
          | key i => simp [updateLoc, getAt]
          | idx q =>
            simp only [updateLoc, getAt]
            rw [List.getElem?_modify]
            by_cases hq : i = q
            · subst hq
              have a1 : ¬ ss <+: ss' := fun e => h ⟨rfl, e⟩
              have a2 : ¬ ss' <+: ss := fun e => h' ⟨rfl, e⟩
              cases l[i]? with
              | none => rfl
              | some v => simpa using ih ss' f v a1 a2
            · simp [hq]
        | _ => rfl

theorem updateLoc_wf (loc : List Seg) : ∀ (f : Json → Json) (j : Json), (∀ v : Json, v.WF → (f v).WF) → j.WF →
    (updateLoc loc f j).WF := by
  induction loc with
  | nil => intro f j hf hw; exact hf j hw
  | cons s ss ih =>
    intro f j hf hw
    cases s with
    | key k =>
      cases j with
      | obj es =>
        simp only [updateLoc, Json.WF]
        refine ⟨by rw [keys_modifyKey]; exact hw.1, (Json.WFEntries_iff _).2 ?_⟩
        intro e he
        obtain ⟨x, hx, rfl⟩ := List.mem_map.1 he
        have := (Json.WFEntries_iff _).1 hw.2 x hx
        split
        · exact ih f x.2 hf this
        · exact this
      | _ => exact hw
    | idx i =>
      cases j with
      | arr l =>
        simp only [updateLoc, Json.WF]
        refine (Json.WFList_iff _).2 ?_
        intro e he
        obtain ⟨n, hn⟩ := List.mem_iff_getElem?.1 he
        rw [List.getElem?_modify] at hn
        cases hl : l[n]? with
        | none => rw [hl] at hn; simp at hn
        | some v =>
          rw [hl] at hn
          have hv := (Json.WFList_iff _).1 hw v (List.mem_of_getElem? hl)
          simp only [Option.map_eq_map, Option.map_some, Option.some.injEq] at hn
          subst hn
          split
          · exact ih f v hf hv
          · exact hv
      | _ => exact hw

theorem updateLoc_tame (loc : List Seg) (f : Json → Json) (j : Json) (hp : ∀ s ∈ loc, PlainSeg s)
    (hf : ∀ v, getAt loc j = some v → Tame (f v)) (ht : Tame j) : Tame (updateLoc loc f j) := by
  intro loc' hg s hs
  rcases Classical.em (loc <+: loc') with ⟨r, rfl⟩ | h
  · rw [getAt_update_below] at hg
    cases hv : getAt loc j with
    | none => rw [hv] at hg; simp at hg
    | some v =>
      rw [hv] at hg
      rcases List.mem_append.1 hs with h | h
      · exact hp s h
      · exact hf v hv r hg s h
  · have := getAt_update_shape loc loc' f j h
    refine ht loc' ?_ s hs
    have := congrArg Option.isSome this
    simp only [Option.isSome_map] at this
    rw [← this]; exact hg

/-! ### All pointers of one generator -/

theorem resolveLocs_nodup (ts : List PathToken) : ∀ j : Json, j.WF → (resolveLocs ts j).Nodup := by
  induction ts with
  | nil => intro j _; simp [resolveLocs]
  | cons t ts ih =>
    intro j hw
    have cons_nodup : ∀ (s : Seg) (l : List (List Seg)), l.Nodup → (l.map (s :: ·)).Nodup := by
      intro s l h
      exact List.Pairwise.map _ (fun a b hab e => hab (List.cons.inj e).2) h
    cases t <;> cases j <;> simp only [resolveLocs, List.nodup_nil]
    · split
      · rename_i v hl
        exact cons_nodup _ _ (ih v ((Json.WFEntries_iff _).1 hw.2 _ (Json.lookup_mem hl)))
      · exact List.nodup_nil
    · split
      · rename_i v hl
        exact cons_nodup _ _ (ih v ((Json.WFList_iff _).1 hw _ (List.mem_of_getElem? hl)))
      · exact List.nodup_nil
    · rename_i es
      unfold List.Nodup
      rw [List.pairwise_flatMap]
      refine ⟨fun e he => cons_nodup _ _ (ih e.2 ((Json.WFEntries_iff _).1 hw.2 e he)), ?_⟩
      have := hw.1.nodup
      rw [List.Nodup, List.pairwise_map] at this
      refine this.imp ?_
      intro a b hab x hx y hy e
      obtain ⟨x', _, rfl⟩ := List.mem_map.1 hx
      obtain ⟨y', _, rfl⟩ := List.mem_map.1 hy
      exact hab (Seg.key.inj (List.cons.inj e).1)
    · rename_i l
      unfold List.Nodup
      rw [List.pairwise_flatMap]
      constructor
      · intro e he
        have hl := List.mem_zipIdx_iff_getElem?.1 he
        exact cons_nodup _ _ (ih e.1 ((Json.WFList_iff _).1 hw _ (List.mem_of_getElem? hl)))
      · have hz : ((l.zipIdx).map (·.2)).Nodup := by
          rw [List.zipIdx_map_snd]; exact List.nodup_range'
        rw [List.Nodup, List.pairwise_map] at hz
        refine hz.imp ?_
        intro a b hab x hx y hy e
        obtain ⟨x', _, rfl⟩ := List.mem_map.1 hx
        obtain ⟨y', _, rfl⟩ := List.mem_map.1 hy
        exact hab (Seg.idx.inj (List.cons.inj e).1)

theorem addresses_length (ts : List PathToken) : ∀ loc, Addresses ts loc → loc.length = ts.length := by
  induction ts with
  | nil => intro loc h; cases loc with | nil => rfl | cons => exact h.elim
  | cons t ts ih =>
    intro loc h
    cases loc with
    | nil => exact h.elim
    | cons s ss => simp [ih ss h.2]

/-- A generator that produces JSON documents from JSON documents (serde_json values never have duplicate keys). -/
def GenWF (g : Gen) : Prop := ∀ ptr (v w : Json), v.WF → g.gen ptr v = some w → w.WF

theorem value_wf {g : Gen} (hg : GenWF g) (ptr : Str) (v : Json) (hv : v.WF) : (g.value ptr v).WF := by
  unfold Gen.value
  cases h : g.gen ptr v with
  | none => exact hv
  | some w => exact hg ptr v w hv h

theorem getAt_wf (loc : List Seg) : ∀ (j v : Json), j.WF → getAt loc j = some v → v.WF := by
  induction loc with
  | nil => intro j v hw h; simp only [getAt, Option.some.injEq] at h; subst h; exact hw
  | cons s ss ih =>
    intro j v hw h
    cases s with
    | key k =>
      cases j with
      | obj es =>
        simp only [getAt] at h
        cases hl : Json.lookup k es with
        | none => rw [hl] at h; cases h
        | some w =>
          rw [hl] at h
          exact ih w v ((Json.WFEntries_iff _).1 hw.2 _ (Json.lookup_mem hl)) h
      | _ => cases h
    | idx i =>
      cases j with
      | arr l =>
        simp only [getAt] at h
        cases hl : l[i]? with
        | none => rw [hl] at h; cases h
        | some w =>
          rw [hl] at h
          exact ih w v ((Json.WFList_iff _).1 hw _ (List.mem_of_getElem? hl)) h
      | _ => cases h

theorem fold_updates (n : Nat) (hn : n ≠ 0) (g : Gen) (hg : GenWF g) (locs : List (List Seg)) :
    ∀ j : Json, j.WF → locs.Nodup →
    (∀ loc ∈ locs, loc.length = n ∧ (∀ s ∈ loc, PlainSeg s) ∧ (getAt loc j).isSome) →
    let j' := (locs.map pointer).foldl (fun j ptr => pointerUpdate ptr (g.value ptr) j) j
    j'.WF ∧ (∀ loc ∈ locs, getAt loc j' = (getAt loc j).map (g.value (pointer loc))) ∧
    (∀ loc', (∀ loc ∈ locs, ¬ loc <+: loc') → (getAt loc' j').map shape = (getAt loc' j).map shape) ∧
    (∀ loc', (∀ loc ∈ locs, ¬ loc <+: loc' ∧ ¬ loc' <+: loc) → getAt loc' j' = getAt loc' j) ∧
    (Tame j → (∀ ptr (v : Json), v.WF → Tame v → Tame (g.value ptr v)) → Tame j') := by
  induction locs with
  | nil => intro j hw _ _; exact ⟨hw, by simp, fun _ _ => rfl, fun _ _ => rfl, fun h _ => h⟩
  | cons l ls ih =>
    intro j hw hnd hall
    obtain ⟨hl1, hl2, hl3⟩ := hall l (by simp)
    have hlne : l ≠ [] := by intro e; rw [e] at hl1; exact hn hl1.symm
    have hnd' := List.nodup_cons.1 hnd
    simp only [List.map_cons, List.foldl_cons]
    rw [pointerUpdate_eq l hlne _ j hl2 hw hl3]
    have inc : ∀ loc ∈ ls, ¬ l <+: loc ∧ ¬ loc <+: l := by
      intro loc hloc
      have hlen := (hall loc (List.mem_cons_of_mem _ hloc)).1
      constructor
      · intro h
        have := h.eq_of_length (by rw [hl1, hlen])
        exact hnd'.1 (this ▸ hloc)
      · intro h
        have := h.eq_of_length (by rw [hl1, hlen])
        exact hnd'.1 (this ▸ hloc)
    have hw' := updateLoc_wf l (g.value (pointer l)) j (fun v hv => value_wf hg _ v hv) hw
    have hkeep : ∀ loc ∈ ls, getAt loc (updateLoc l (g.value (pointer l)) j) = getAt loc j := fun loc hloc =>
      getAt_update_ne l loc _ j (inc loc hloc).1 (inc loc hloc).2
    obtain ⟨a1, a2, a3, a4, a5⟩ := ih (updateLoc l (g.value (pointer l)) j) hw' hnd'.2 (by
      intro loc hloc
      obtain ⟨b1, b2, b3⟩ := hall loc (List.mem_cons_of_mem _ hloc)
      exact ⟨b1, b2, by rw [hkeep loc hloc]; exact b3⟩)
    refine ⟨a1, ?_, ?_, ?_, ?_⟩
    · intro loc hloc
      rcases List.mem_cons.1 hloc with h | h
      · subst h
        have hloc' : ∀ loc' ∈ ls, ¬ loc' <+: loc ∧ ¬ loc <+: loc' := fun loc' h' => ⟨(inc loc' h').2, (inc loc' h').1⟩
        rw [a4 loc hloc']
        have := getAt_update_below loc [] (g.value (pointer loc)) j
        rw [List.append_nil] at this
        rw [this]
        cases getAt loc j <;> rfl
      · rw [a2 loc h, hkeep loc h]
    · intro loc' hloc'
      rw [a3 loc' (fun x hx => hloc' x (List.mem_cons_of_mem _ hx))]
      exact getAt_update_shape l loc' _ j (hloc' l (by simp))
    · intro loc' hloc'
      rw [a4 loc' (fun x hx => hloc' x (List.mem_cons_of_mem _ hx))]
      exact getAt_update_ne l loc' _ j (hloc' l (by simp)).1 (hloc' l (by simp)).2
    · intro ht hgt
      apply a5 _ hgt
      apply updateLoc_tame l _ j hl2 _ ht
      intro v hv
      apply hgt _ _ (getAt_wf l j v hw hv)
      intro r hr s hs
      refine ht (l ++ r) ?_ s (List.mem_append_right _ hs)
      have := getAt_update_below l r id j
      have hid : ∀ (l : List Seg) (r : List Seg) (j : Json) (v : Json), getAt l j = some v → getAt (l ++ r) j = getAt r v := by
        intro l
        induction l with
        | nil => intro r j v h; simp only [getAt, Option.some.injEq] at h; subst h; rfl
        | cons s ss ih =>
          intro r j v h
          cases s <;> cases j <;> simp only [getAt, List.cons_append] at h ⊢ <;> first | (exact absurd h (by simp)) | skip
          · cases hl : Json.lookup _ _ with
            | none => rw [hl] at h; simp at h
            | some w => rw [hl] at h; simpa using ih r w v h
          · rename_i i l
            cases hl : l[i]? with
            | none => rw [hl] at h; simp at h
            | some w => rw [hl] at h; simpa using ih r w v h
      rw [hid l r j v hv]
      exact hr

/-! ### C37 -/

/-- A location addressed by the path in the document. -/
def Addressed (ts : List PathToken) (j : Json) (loc : List Seg) : Prop :=
  Addresses ts loc ∧ (getAt loc j).isSome

theorem applyKey_spec (ts : List PathToken) (hr : PathToken.root ∉ ts) (g : Gen) (hg : GenWF g) (j : Json)
    (hw : j.WF) (ht : Tame j) :
    (applyKey (.root :: ts) g j).WF ∧
    (∀ loc, Addressed ts j loc → ∃ ptr, getAt loc (applyKey (.root :: ts) g j) = (getAt loc j).map (g.value ptr)) ∧
    (∀ loc', (∀ loc, Addressed ts j loc → ¬ loc <+: loc') →
      (getAt loc' (applyKey (.root :: ts) g j)).map shape = (getAt loc' j).map shape) ∧
    ((∀ ptr (v : Json), v.WF → Tame v → Tame (g.value ptr v)) → Tame (applyKey (.root :: ts) g j)) := by
  unfold applyKey
  simp only [resolvePath_eq ts hr j hw ht]
  by_cases hts : ts = []
  · subst hts
    simp only [if_true, List.isEmpty_nil, Bool.not_true, Bool.false_eq_true, if_false, List.length_singleton]
    refine ⟨value_wf hg _ j hw, ?_, ?_, fun h => h [] j hw ht⟩
    · intro loc hloc
      cases loc with
      | nil => exact ⟨[], rfl⟩
      | cons => exact hloc.1.elim
    · intro loc' h
      exact absurd (List.nil_prefix) (h [] ⟨trivial, rfl⟩)
  · simp only [if_neg hts]
    have hmem := mem_resolveLocs ts j
    split
    · have hs := fold_updates ts.length (by intro e; exact hts (List.length_eq_zero_iff.1 e)) g hg (resolveLocs ts j) j hw
        (resolveLocs_nodup ts j hw) (by
          intro loc hloc
          have := (hmem loc hw).1 hloc
          exact ⟨addresses_length ts loc this.1, ht loc this.2, this.2⟩)
      refine ⟨hs.1, ?_, ?_, fun h => hs.2.2.2.2 ht h⟩
      · intro loc hloc
        exact ⟨_, hs.2.1 loc ((hmem loc hw).2 hloc)⟩
      · intro loc' h
        exact hs.2.2.1 loc' (fun loc hloc => h loc ((hmem loc hw).1 hloc))
    · rename_i he
      have he : resolveLocs ts j = [] := by
        cases h : resolveLocs ts j with
        | nil => rfl
        | cons => rw [h] at he; simp at he
      rw [if_neg (by
        intro e; simp only [List.length_cons] at e
        exact hts (List.length_eq_zero_iff.1 (by omega)))]
      refine ⟨hw, ?_, fun _ _ => rfl, fun _ => ht⟩
      intro loc hloc
      have := (hmem loc hw).2 hloc
      rw [he] at this
      exact absurd this (List.not_mem_nil)

/-- C37 (the addressed values are replaced): after a generator is applied at a path, every location the path
addresses holds the value generated for what was there (or the old value, if generation failed). -/
theorem C37_applied_partial (ts : List PathToken) (hr : PathToken.root ∉ ts) (g : Gen) (hg : GenWF g) (j : Json)
    (hw : j.WF) (ht : Tame j) (loc : List Seg) (v : Json) (ha : Addresses ts loc) (hv : getAt loc j = some v) :
    ∃ ptr, getAt loc (applyKey (.root :: ts) g j) = some ((g.gen ptr v).getD v) := by
  obtain ⟨ptr, h⟩ := (applyKey_spec ts hr g hg j hw ht).2.1 loc ⟨ha, by rw [hv]; rfl⟩
  exact ⟨ptr, by rw [h, hv]; rfl⟩

/-- C37 (nothing else is touched): a location that is neither addressed by the path nor below such a location
keeps its scalar, its array length or its object keys. -/
theorem C37_untouched_partial (ts : List PathToken) (hr : PathToken.root ∉ ts) (g : Gen) (hg : GenWF g) (j : Json)
    (hw : j.WF) (ht : Tame j) (loc' : List Seg)
    (h : ∀ loc, Addresses ts loc → ¬ loc <+: loc') :
    (getAt loc' (applyKey (.root :: ts) g j)).map shape = (getAt loc' j).map shape :=
  (applyKey_spec ts hr g hg j hw ht).2.2.1 loc' (fun loc hloc => h loc hloc.1)

/-- C37 (absent path): a generator whose path addresses nothing changes nothing. -/
theorem C37_absent_partial (ts : List PathToken) (hr : PathToken.root ∉ ts) (g : Gen) (j : Json)
    (hw : j.WF) (ht : Tame j) (h : ∀ loc, Addresses ts loc → getAt loc j = none) :
    applyKey (.root :: ts) g j = j := by
  have hts : ts ≠ [] := by
    rintro rfl
    have := h [] trivial
    simp [getAt] at this
  have he : resolveLocs ts j = [] := by
    cases hl : resolveLocs ts j with
    | nil => rfl
    | cons x xs =>
      have := (mem_resolveLocs ts j x hw).1 (by rw [hl]; simp)
      rw [h x this.1] at this
      exact absurd this.2 (by simp)
  unfold applyKey
  simp only [resolvePath_eq ts hr j hw ht, if_neg hts, he, List.map_nil, List.isEmpty_nil, Bool.not_true,
    Bool.false_eq_true, if_false]
  rw [if_neg]
  intro e; simp only [List.length_cons] at e
  exact hts (List.length_eq_zero_iff.1 (by omega))

/-- C37 (whole body): with any number of generators, in any order, a location that no path of an applicable
generator addresses, and that is not below one, keeps its scalar, its array length or its object keys. -/
theorem C37_body_partial (gs : List (DocPath × Gen)) (j : Json) (hw : j.WF) (ht : Tame j)
    (hp : ∀ e ∈ gs, ∃ ts, e.1.tokens = .root :: ts ∧ PathToken.root ∉ ts)
    (hg : ∀ e ∈ gs, GenWF e.2 ∧ ∀ ptr (v : Json), v.WF → Tame v → Tame (e.2.value ptr v))
    (loc' : List Seg)
    (h : ∀ e ∈ gs, e.2.applies = true → ∀ ts loc, e.1.tokens = .root :: ts → Addresses ts loc → ¬ loc <+: loc') :
    (getAt loc' (processBody gs j)).map shape = (getAt loc' j).map shape := by
  unfold processBody
  induction gs generalizing j with
  | nil => rfl
  | cons e es ih =>
    simp only [List.foldl_cons]
    obtain ⟨ts, hts, hr⟩ := hp e (by simp)
    obtain ⟨hg1, hg2⟩ := hg e (by simp)
    have hp' := fun x hx => hp x (List.mem_cons_of_mem e hx)
    have hg' := fun x hx => hg x (List.mem_cons_of_mem e hx)
    have h' := fun x hx => h x (List.mem_cons_of_mem e hx)
    by_cases ha : e.2.applies = true
    · rw [if_pos ha, hts]
      have hs := applyKey_spec ts hr e.2 hg1 j hw ht
      rw [ih _ hs.1 (hs.2.2.2 hg2) hp' hg' h']
      exact hs.2.2.1 loc' (fun loc hloc => h e (by simp) ha ts loc hts hloc.1)
    · rw [if_neg ha]
      exact ih j hw ht hp' hg' h'

/-- A generator that always produces `null`. -/
def nullGen : Gen := { applies := true, gen := fun _ _ => some .null }

/-- C37 (unescaped keys): a key that contains a slash is written unescaped into the JSON pointer: the
generator at `$['a/b']` leaves the addressed value alone and changes `$.a.b`, which it does not address. -/
theorem C37_slash_key :
    let j : Json := .obj [("a".toList, .obj [("b".toList, .num (.pos 1))]), ("a/b".toList, .num (.pos 2))]
    getAt [.key "a/b".toList] (applyKey [.root, .field "a/b".toList] nullGen j) = some (.num (.pos 2)) ∧
    getAt [.key "a".toList, .key "b".toList] (applyKey [.root, .field "a/b".toList] nullGen j) = some .null :=
  ⟨rfl, rfl⟩

/-- C37 (tilde in a key): the pointer syntax decodes `~1`, so a generator for the key `x~1y` is lost. -/
theorem C37_tilde_key :
    let j : Json := .obj [("x~1y".toList, .num (.pos 2))]
    applyKey [.root, .field "x~1y".toList] nullGen j = j := rfl

/-- C37 (empty key): a generator for a member whose key is the empty string is never applied. -/
theorem C37_empty_key :
    let j : Json := .obj [([], .num (.pos 2))]
    applyKey [.root, .field []] nullGen j = j := rfl

/-- Non-vacuity: a tame document, a wildcard path, and what becomes of it. -/
example : applyKey [.root, .field ['a'], .starIndex, .field ['b']] nullGen
    (.obj [(['a'], .arr [.obj [(['b'], .num (.pos 1)), (['c'], .bool true)], .obj [(['c'], .null)]])]) =
    .obj [(['a'], .arr [.obj [(['b'], .null), (['c'], .bool true)], .obj [(['c'], .null)]])] := rfl

theorem plain_key1 (c : Char) (h1 : c ≠ '/') (h2 : c ≠ '~') : PlainSeg (.key [c]) := by
  refine ⟨?_, ?_, by simp⟩
  · intro h; rw [List.mem_singleton] at h; exact h1 h.symm
  · intro h; rw [List.mem_singleton] at h; exact h2 h.symm

example : Tame (.obj [(['a'], .arr [.num (.pos 1)])]) := by
  intro loc hl
  cases loc with
  | nil => simp
  | cons s ss =>
    cases s with
    | idx i => simp [getAt] at hl
    | key k =>
      by_cases hk : ['a'] = k
      · subst hk
        simp only [getAt, Json.lookup, if_true, Option.bind_some] at hl
        intro s hs
        rcases List.mem_cons.1 hs with h | h
        · rw [h]; exact plain_key1 'a' (by decide) (by decide)
        · cases ss with
          | nil => simp at h
          | cons t ts =>
            cases t with
            | key => simp [getAt] at hl
            | idx i =>
              cases i with
              | zero =>
                cases ts with
                | nil => rw [List.mem_singleton] at h; rw [h]; show 0 < usizeLim; decide
                | cons u us => cases u <;> simp [getAt] at hl
              | succ n => simp [getAt] at hl
      · simp [getAt, Json.lookup, hk] at hl

example : GenWF nullGen ∧ ∀ ptr (v : Json), v.WF → Tame v → Tame (nullGen.value ptr v) := by
  constructor
  · intro ptr v w _ h
    simp only [nullGen, Option.some.injEq] at h
    subst h; simp [Json.WF]
  · intro ptr v _ _ loc hl
    cases loc with
    | nil => simp
    | cons s ss => cases s <;> simp [nullGen, Gen.value, getAt] at hl

/-- Specification (RFC 6901): a key written as a segment of a JSON pointer. -/
def escapeToken (s : Str) : Str :=
  s.flatMap fun c => if c = '~' then ['~', '0'] else if c = '/' then ['~', '1'] else [c]

theorem replacePair_skip {x y r c : Char} (h : c ≠ x) (s : Str) :
    replacePair x y r (c :: s) = c :: replacePair x y r s := by
  cases s with
  | nil => rfl
  | cons d s => rw [replacePair, if_neg (fun hc => h hc.1)]

theorem replacePair_hit (x y r : Char) (s : Str) : replacePair x y r (x :: y :: s) = r :: replacePair x y r s := by
  rw [replacePair, if_pos ⟨rfl, rfl⟩]

theorem replacePair_miss {x y r d : Char} (h : d ≠ y) (s : Str) :
    replacePair x y r (x :: d :: s) = x :: replacePair x y r (d :: s) := by
  rw [replacePair, if_neg (fun hc => h hc.2)]

/-- **C37**, pointers: every key can be addressed by writing it as RFC 6901 prescribes (which the body generators do
not do, see `C37_slash_key`). -/
theorem C37_escaped_pointer (s : Str) : unescapeToken (escapeToken s) = s := by
  have h1 : ∀ s : Str, replacePair '~' '1' '/' (escapeToken s) =
      s.flatMap fun c => if c = '~' then ['~', '0'] else [c] := by
    intro s
    induction s with
    | nil => rfl
    | cons c s ih =>
      have hc : escapeToken (c :: s) = (if c = '~' then ['~', '0'] else if c = '/' then ['~', '1'] else [c]) ++
          escapeToken s := by simp [escapeToken]
      rw [hc, List.flatMap_cons, ← ih]
      by_cases h : c = '~'
      · rw [if_pos h, if_pos h]
        show replacePair '~' '1' '/' ('~' :: '0' :: escapeToken s) = '~' :: '0' :: _
        rw [replacePair_miss (by decide), replacePair_skip (by decide)]
        rfl
      · rw [if_neg h, if_neg h]
        by_cases h' : c = '/'
        · rw [if_pos h', h']
          exact replacePair_hit _ _ _ _
        · rw [if_neg h']
          exact replacePair_skip h _
  have h2 : ∀ s : Str, replacePair '~' '0' '~' (s.flatMap fun c => if c = '~' then ['~', '0'] else [c]) = s := by
    intro s
    induction s with
    | nil => rfl
    | cons c s ih =>
      rw [List.flatMap_cons]
      by_cases h : c = '~'
      · rw [if_pos h]
        refine Eq.trans (replacePair_hit _ _ _ _) ?_
        show '~' :: replacePair '~' '0' '~' (s.flatMap fun c => if c = '~' then ['~', '0'] else [c]) = c :: s
        rw [ih, h]
      · rw [if_neg h]
        refine Eq.trans (replacePair_skip h _) ?_
        show c :: replacePair '~' '0' '~' (s.flatMap fun c => if c = '~' then ['~', '0'] else [c]) = c :: s
        rw [ih]
  unfold unescapeToken
  rw [h1, h2]

/-- Non-vacuity: the key `~1` is not confused with `/`. -/
example : escapeToken "~1".toList = "~01".toList ∧ unescapeToken "~01".toList = "~1".toList := by decide


end BodyGeneratorProps
end Verif
