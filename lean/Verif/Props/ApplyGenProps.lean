import Verif.ApplyGen
import Verif.Props.HeaderProps
import Verif.Props.ExprProps
import Verif.Props.BodyGeneratorProps
import Verif.Props.ProviderMessageProps

/-
  Properties C139-C141: the requests and responses made by applying generators.
-/

set_option autoImplicit false

namespace Verif
namespace ApplyGenProps
open Path Rules Generate PactFile Query Headers ApplyGen
open RuleJson (Obj)
open Provider (Libs asBody)

/-! ### Loops -/

theorem bind_eq_ok {A B : Type} {r : Res A} {f : A → Res B} {b : B} (h : r.bind f = .ok b) :
    ∃ a, r = .ok a ∧ f a = .ok b := by
  cases r with
  | ok a => exact ⟨a, rfl, h⟩
  | err => simp at h
  | panic => simp at h

theorem bind_eq_panic {A B : Type} {r : Res A} {f : A → Res B} (h : r.bind f = .panic) :
    r = .panic ∨ ∃ a, r = .ok a ∧ f a = .panic := by
  cases r with
  | ok a => exact Or.inr ⟨a, rfl, h⟩
  | err => simp at h
  | panic => exact Or.inl rfl

/-- The value, if there is one. -/
def okPart {A : Type} : Res A → Option A
  | .ok a => some a
  | _ => none

theorem okPart_map {A B : Type} (f : A → B) (r : Res A) : okPart (r.map f) = (okPart r).map f := by
  cases r <;> rfl

theorem orKeep_ok {A : Type} {old new : A} {r : Res A} (h : orKeep old r = .ok new) : new = (okPart r).getD old := by
  cases r with
  | ok a => simp only [orKeep, Res.ok.injEq] at h; exact h.symm
  | err => simp only [orKeep, Res.ok.injEq] at h; exact h.symm
  | panic => simp [orKeep] at h

theorem orKeep_panic {A : Type} {old : A} {r : Res A} : orKeep old r = .panic ↔ r = .panic := by
  cases r <;> simp [orKeep]

theorem orKeep_not_err {A : Type} (old : A) (r : Res A) : orKeep old r ≠ .err := by
  cases r <;> simp [orKeep]

/-- A loop in which each step either sets what is looked at or leaves it: in the end it has the last value set. -/
theorem last_wins {S A V : Type} (get : S → Option V) (f : S → A → Res S) (val : A → Option V)
    (hf : ∀ s a s', f s a = .ok s' → get s' = (val a).or (get s)) (l : List A) (s s' : S) (h : foldR f s l = .ok s') :
    get s' = (l.reverse.findSome? val).or (get s) := by
  induction l generalizing s with
  | nil => simp only [foldR, Res.ok.injEq] at h; subst h; simp
  | cons a as ih =>
    simp only [foldR] at h
    obtain ⟨t, ht, h⟩ := bind_eq_ok h
    rw [ih t h, hf s a t ht, List.reverse_cons, List.findSome?_append]
    cases h1 : List.findSome? val as.reverse <;> cases h2 : val a <;> simp [h2]

/-- A loop whose steps do not change something does not change it. -/
theorem fold_same {S A V : Type} (get : S → V) (f : S → A → Res S) (l : List A)
    (hf : ∀ s, ∀ a ∈ l, ∀ s', f s a = .ok s' → get s' = get s) (s s' : S) (h : foldR f s l = .ok s') : get s' = get s := by
  induction l generalizing s with
  | nil => simp only [foldR, Res.ok.injEq] at h; rw [h]
  | cons a as ih =>
    simp only [foldR] at h
    obtain ⟨t, ht, h⟩ := bind_eq_ok h
    rw [ih (fun s x hx => hf s x (List.mem_cons_of_mem a hx)) t h, hf s a (List.mem_cons_self ..) t ht]

theorem foldR_append {S A : Type} (f : S → A → Res S) (l m : List A) (s : S) :
    foldR f s (l ++ m) = (foldR f s l).bind fun s => foldR f s m := by
  induction l generalizing s with
  | nil => rfl
  | cons a as ih =>
    simp only [List.cons_append, foldR]
    cases f s a with
    | ok t => simp [ih]
    | err => rfl
    | panic => rfl

/-! ### What a generator gives -/

/-- The text a generator gives at a place, if it is for this mode and can give one. -/
def textAt (G : GLib) (D : Draws) (mode : Mode) (ctx : Obj) (place : List Str) (g : AnyGen) : Option Str :=
  if corresponds mode g then okPart (generateText G (D place) ctx g) else none

/-- The status a generator gives. -/
def statusAt (G : GLib) (D : Draws) (mode : Mode) (ctx : Obj) (place : List Str) (g : AnyGen) : Option Nat :=
  if corresponds mode g then okPart (generateU16 G (D place) ctx g) else none

/-- The values a generator gives a header: one, if it is for this header. -/
def headerAt (G : GLib) (D : Draws) (mode : Mode) (ctx : Obj) (h : Str) (e : DocPath × AnyGen) : Option (List Str) :=
  if firstField e.1 = some h then (textAt G D mode ctx ["header".toList, e.1.expr] e.2).map fun v => [v] else none

/-- The values of a header, if it is there. -/
def headerOf (hs : Option HeaderMap) (h : Str) : Option (List Str) := hs.bind (Json.lookup h)

/-- The values of a query parameter, if it is there. -/
def paramOf (q : Option QueryMap) (p : Str) : Option (List (Option Str)) := q.bind (Json.lookup p)

theorem gensFor_mem (G : GLib) (rules : MatchingRules) (gens : Generators) (c : GenCategory) (e : DocPath × AnyGen) :
    e ∈ gensFor G rules gens c ↔ e ∈ buildGens rules gens c := (G.order_perm c _).mem_iff

/-! ### Steps -/

theorem headerStep_ok {G : GLib} {D : Draws} {ctx : Obj} {hs hs' : Option HeaderMap} {key : DocPath} {g : AnyGen}
    (h : headerStep G D ctx hs key g = .ok hs') (n : Str) :
    headerOf hs' n = (if firstField key = some n then
      (okPart (generateText G (D ["header".toList, key.expr]) ctx g)).map fun v => [v] else none).or (headerOf hs n) := by
  unfold headerStep at h
  cases hk : firstField key with
  | none => rw [hk] at h; simp only [Res.ok.injEq] at h; subst h; simp
  | some k =>
    rw [hk] at h
    generalize "header".toList = lit at h ⊢
    cases hs with
    | none =>
      simp only at h
      have := orKeep_ok h
      rw [okPart_map] at this
      subst this
      cases hv : okPart (generateText G (D [lit, key.expr]) ctx g) with
      | none => by_cases hn : k = n <;> simp [headerOf, hn]
      | some v =>
        by_cases hn : k = n
        · subst hn; simp [headerOf, Json.lookup]
        · simp [headerOf, Json.lookup, hn]
    | some m =>
      simp only at h
      have := orKeep_ok h
      rw [okPart_map] at this
      subst this
      cases hv : okPart (generateText G (D [lit, key.expr]) ctx g) with
      | none => by_cases hn : k = n <;> simp [headerOf, hn]
      | some v =>
        by_cases hn : k = n
        · subst hn; simp [headerOf, HeaderProps.lookup_insertKV]
        · have hn' : ¬ n = k := fun e => hn e.symm
          simp [headerOf, HeaderProps.lookup_insertKV, hn, hn']

/-- The headers after a loop over generators. -/
theorem headers_after (G : GLib) (D : Draws) (mode : Mode) (ctx : Obj) (gs : List (DocPath × AnyGen))
    (hs hs' : Option HeaderMap) (h : applyGens mode (headerStep G D ctx) hs gs = .ok hs') (n : Str) :
    headerOf hs' n = (gs.reverse.findSome? (headerAt G D mode ctx n)).or (headerOf hs n) := by
  refine last_wins (fun s => headerOf s n) _ _ ?_ gs hs hs' h
  intro s e s' he
  by_cases hc : corresponds mode e.2
  · rw [if_pos hc] at he
    rw [headerStep_ok he n]
    simp only [headerAt, textAt, hc, if_true]
  · rw [if_neg hc, Res.ok.injEq] at he
    subst he
    simp [headerAt, textAt, hc]

theorem path_after (G : GLib) (D : Draws) (mode : Mode) (ctx : Obj) (gs : List (DocPath × AnyGen))
    (p p' : Str) (h : applyGens mode (pathStep G D ctx) p gs = .ok p') :
    p' = (gs.reverse.findSome? fun e => textAt G D mode ctx ["path".toList, e.1.expr] e.2).getD p := by
  have := last_wins (fun s : Str => some s) _ (fun e => textAt G D mode ctx ["path".toList, e.1.expr] e.2) ?_ gs p p' h
  · cases hv : gs.reverse.findSome? fun e => textAt G D mode ctx ["path".toList, e.1.expr] e.2 with
    | none => rw [hv] at this; simpa using this
    | some v => rw [hv] at this; simpa using this
  · intro s e s' he
    by_cases hc : corresponds mode e.2
    · rw [if_pos hc] at he
      have := orKeep_ok he
      rw [this]
      simp only [textAt, hc, if_true]
      cases okPart (generateText G (D ["path".toList, e.1.expr]) ctx e.2) <;> simp
    · rw [if_neg hc, Res.ok.injEq] at he
      subst he
      simp [textAt, hc]

theorem status_after (G : GLib) (D : Draws) (mode : Mode) (ctx : Obj) (gs : List (DocPath × AnyGen))
    (p p' : Nat) (h : applyGens mode (statusStep G D ctx) p gs = .ok p') :
    p' = (gs.reverse.findSome? fun e => statusAt G D mode ctx ["status".toList, e.1.expr] e.2).getD p := by
  have := last_wins (fun s : Nat => some s) _ (fun e => statusAt G D mode ctx ["status".toList, e.1.expr] e.2) ?_ gs p p' h
  · cases hv : gs.reverse.findSome? fun e => statusAt G D mode ctx ["status".toList, e.1.expr] e.2 with
    | none => rw [hv] at this; simpa using this
    | some v => rw [hv] at this; simpa using this
  · intro s e s' he
    by_cases hc : corresponds mode e.2
    · rw [if_pos hc] at he
      have := orKeep_ok he
      rw [this]
      simp only [statusAt, hc, if_true]
      cases okPart (generateU16 G (D ["status".toList, e.1.expr]) ctx e.2) <;> simp
    · rw [if_neg hc, Res.ok.injEq] at he
      subst he
      simp [statusAt, hc]

/-- The new values of a query parameter that is there. -/
def newValues (f : Nat → Option Str) (vs : List (Option Str)) : List (Option Str) :=
  vs.mapIdx fun i v => (f i).or v

theorem paramValues_ok (f : Nat → Res Str) : ∀ (i : Nat) (vs ws : List (Option Str)), paramValues f i vs = .ok ws →
    ws = vs.mapIdx fun j v => (okPart (f (i + j))).or v
  | _, [], ws, h => by simp only [paramValues, Res.ok.injEq] at h; subst h; rfl
  | i, v :: vs, ws, h => by
    simp only [paramValues] at h
    obtain ⟨w, hw, h⟩ := bind_eq_ok h
    obtain ⟨ws', hws, h⟩ := Res.map_eq_ok.1 h
    subst h
    have := orKeep_ok hw
    rw [okPart_map] at this
    rw [List.mapIdx_cons, paramValues_ok f (i + 1) vs ws' hws, this]
    congr 1
    · rw [Nat.add_zero]
      cases okPart (f i) <;> rfl
    · congr 1
      funext j v
      rw [Nat.add_assoc, Nat.add_comm 1 j]

/-- The values a generator gives a query parameter: each value that is there, or one new value. -/
def paramAfter (G : GLib) (D : Draws) (mode : Mode) (ctx : Obj) (e : DocPath × AnyGen) (old : Option (List (Option Str))) :
    Option (List (Option Str)) :=
  match old with
  | some vs => some (newValues (fun i => textAt G D mode ctx ["query".toList, e.1.expr, natStr i] e.2) vs)
  | none => (textAt G D mode ctx ["query".toList, e.1.expr] e.2).map fun v => [some v]

theorem newValues_none (vs : List (Option Str)) : newValues (fun _ => none) vs = vs := by
  unfold newValues
  apply List.ext_getElem?
  intro i
  simp

theorem queryStep_ok {G : GLib} {D : Draws} {ctx : Obj} {q q' : Option QueryMap} {key : DocPath} {g : AnyGen} {mode : Mode}
    (hc : corresponds mode g = true) (h : queryStep G D ctx q key g = .ok q') (n : Str) :
    paramOf q' n = if firstField key = some n then paramAfter G D mode ctx (key, g) (paramOf q n) else paramOf q n := by
  unfold queryStep at h
  cases hk : firstField key with
  | none => rw [hk] at h; simp only [Res.ok.injEq] at h; subst h; simp
  | some k =>
    rw [hk] at h
    have hcomm : ∀ a b : Str, some a = some b ↔ a = b := by simp
    simp only [hcomm]
    unfold paramAfter
    simp only [textAt, hc, if_true]
    generalize "query".toList = lit at h ⊢
    cases q with
    | none =>
      simp only at h
      have := orKeep_ok h
      rw [okPart_map] at this
      subst this
      have : paramOf none n = none := rfl
      rw [this]
      cases hv : okPart (generateText G (D [lit, key.expr]) ctx g) with
      | none => by_cases hn : k = n <;> simp [paramOf, hn]
      | some v => by_cases hn : k = n <;> simp [paramOf, Json.lookup, hn]
    | some m =>
      simp only at h
      cases hl : Json.lookup k m with
      | none =>
        rw [hl] at h
        simp only at h
        have := orKeep_ok h
        rw [okPart_map] at this
        subst this
        by_cases hn : k = n
        · subst hn
          have hp : paramOf (some m) k = none := hl
          rw [hp, if_pos rfl]
          cases hv : okPart (generateText G (D [lit, key.expr]) ctx g) with
          | none => simpa using hp
          | some v => simp [paramOf, HeaderProps.lookup_insertKV]
        · rw [if_neg hn]
          have hn' : ¬ n = k := fun e => hn e.symm
          cases hv : okPart (generateText G (D [lit, key.expr]) ctx g) with
          | none => simp
          | some v => simp [paramOf, HeaderProps.lookup_insertKV, hn']
      | some vs =>
        rw [hl] at h
        simp only at h
        obtain ⟨ws, hws, h⟩ := Res.map_eq_ok.1 h
        subst h
        have hw := paramValues_ok _ 0 vs ws hws
        by_cases hn : k = n
        · subst hn
          have hp : paramOf (some m) k = some vs := hl
          rw [hp, if_pos rfl]
          simp only [paramOf, Option.bind_some, HeaderProps.lookup_insertKV, if_true]
          rw [hw]
          simp [newValues]
        · rw [if_neg hn]
          have hn' : ¬ n = k := fun e => hn e.symm
          simp [paramOf, HeaderProps.lookup_insertKV, hn']

/-- The query parameters after a loop: the generators with this name, one after the other. -/
theorem query_after (G : GLib) (D : Draws) (mode : Mode) (ctx : Obj) (gs : List (DocPath × AnyGen))
    (q q' : Option QueryMap) (h : applyGens mode (queryStep G D ctx) q gs = .ok q') (n : Str) :
    paramOf q' n = gs.foldl (fun old e => if firstField e.1 = some n ∧ corresponds mode e.2 = true then
      paramAfter G D mode ctx e old else old) (paramOf q n) := by
  induction gs generalizing q with
  | nil => simp only [applyGens, foldR, Res.ok.injEq] at h; subst h; rfl
  | cons e es ih =>
    simp only [applyGens, foldR] at h
    obtain ⟨t, ht, h⟩ := bind_eq_ok h
    rw [ih t h, List.foldl_cons]
    congr 1
    by_cases hc : corresponds mode e.2
    · rw [if_pos hc] at ht
      rw [queryStep_ok hc ht n]
      simp [hc]
    · rw [if_neg hc, Res.ok.injEq] at ht
      subst ht
      simp [hc]

/-! ### C139 Generated requests -/

/-- The parts of a generated request. -/
theorem request_parts {B : Libs} {G : GLib} {D : Draws} {mode : Mode} {ctx : Obj} {r r' : HttpRequest}
    (h : generateRequest B G D mode ctx r = .ok r') :
    applyGens mode (pathStep G D ctx) r.path (gensFor G r.rules r.gens .path) = .ok r'.path ∧
    applyGens mode (headerStep G D ctx) r.headers (gensFor G r.rules r.gens .header) = .ok r'.headers ∧
    applyGens mode (queryStep G D ctx) r.query (gensFor G r.rules r.gens .query) = .ok r'.query ∧
    generateBody B G D mode ctx (defaultVariant B.env) (gensFor G r.rules r.gens .body)
      (MatchResult.contentType B.file.P.uc B.bodies ⟨r'.headers, asBody r.body⟩) r.body = .ok r'.body ∧
    r'.method = r.method ∧ r'.rules = r.rules ∧ r'.gens = r.gens := by
  unfold generateRequest at h
  obtain ⟨p, hp, h⟩ := bind_eq_ok h
  obtain ⟨hs, hhs, h⟩ := bind_eq_ok h
  obtain ⟨q, hq, h⟩ := bind_eq_ok h
  obtain ⟨b, hb, h⟩ := Res.map_eq_ok.1 h
  subst h
  exact ⟨hp, hhs, hq, hb, rfl, rfl, rfl⟩

/-- The parts of a generated response. -/
theorem response_parts {B : Libs} {G : GLib} {D : Draws} {mode : Mode} {ctx : Obj} {r r' : HttpResponse}
    (h : generateResponse B G D mode ctx r = .ok r') :
    applyGens mode (statusStep G D ctx) r.status (gensFor G r.rules r.gens .status) = .ok r'.status ∧
    applyGens mode (headerStep G D ctx) r.headers (gensFor G r.rules r.gens .header) = .ok r'.headers ∧
    generateBody B G D mode ctx (defaultVariant B.env) (gensFor G r.rules r.gens .body)
      (MatchResult.contentType B.file.P.uc B.bodies ⟨r'.headers, asBody r.body⟩) r.body = .ok r'.body ∧
    r'.rules = r.rules ∧ r'.gens = r.gens := by
  unfold generateResponse at h
  obtain ⟨p, hp, h⟩ := bind_eq_ok h
  obtain ⟨hs, hhs, h⟩ := bind_eq_ok h
  obtain ⟨b, hb, h⟩ := Res.map_eq_ok.1 h
  subst h
  exact ⟨hp, hhs, hb, rfl, rfl⟩

/-- C139 (what never changes): the method, the rules and the generators of a request. -/
theorem C139_frame (B : Libs) (G : GLib) (D : Draws) (mode : Mode) (ctx : Obj) (r r' : HttpRequest)
    (h : generateRequest B G D mode ctx r = .ok r') :
    r'.method = r.method ∧ r'.rules = r.rules ∧ r'.gens = r.gens := (request_parts h).2.2.2.2

/-- A list that has only one element with a value gives this value, wherever it is. -/
theorem findSome_unique {A V : Type} (f : A → Option V) (l : List A) (e : A) (he : e ∈ l)
    (hu : ∀ x ∈ l, x ≠ e → f x = none) : l.findSome? f = f e := by
  induction l with
  | nil => exact absurd he (List.not_mem_nil)
  | cons x xs ih =>
    rw [List.findSome?_cons]
    by_cases hx : x = e
    · subst hx
      cases hf : f x with
      | some v => rfl
      | none =>
        rw [List.findSome?_eq_none_iff.2]
        intro y hy
        by_cases hyx : y = x
        · rw [hyx, hf]
        · exact hu y (List.mem_cons_of_mem _ hy) hyx
    · rw [hu x (List.mem_cons_self ..) hx]
      simp only
      exact ih (by rcases List.mem_cons.1 he with h | h
                   · exact absurd h.symm hx
                   · exact h) (fun y hy => hu y (List.mem_cons_of_mem _ hy))

theorem findSome_none {A V : Type} (f : A → Option V) (l : List A) (hu : ∀ x ∈ l, f x = none) : l.findSome? f = none :=
  List.findSome?_eq_none_iff.2 hu

/-- C139 (the path): the path is the text of the last path generator that gives one, else it is unchanged. -/
theorem C139_path (B : Libs) (G : GLib) (D : Draws) (mode : Mode) (ctx : Obj) (r r' : HttpRequest)
    (h : generateRequest B G D mode ctx r = .ok r') :
    r'.path = ((gensFor G r.rules r.gens .path).reverse.findSome? fun e =>
      textAt G D mode ctx ["path".toList, e.1.expr] e.2).getD r.path := path_after G D mode ctx _ _ _ (request_parts h).1

/-- C139 (one path generator): with one path generator the path is its text; if it is not for this mode or fails the path is
unchanged. -/
theorem C139_path_one (B : Libs) (G : GLib) (D : Draws) (mode : Mode) (ctx : Obj) (r r' : HttpRequest) (key : DocPath)
    (g : AnyGen) (hg : buildGens r.rules r.gens .path = [(key, g)]) (h : generateRequest B G D mode ctx r = .ok r') :
    r'.path = (textAt G D mode ctx ["path".toList, key.expr] g).getD r.path := by
  rw [C139_path B G D mode ctx r r' h]
  congr 1
  rw [findSome_unique _ _ (key, g)]
  · simp only [List.mem_reverse, gensFor_mem, hg, List.mem_singleton]
  · intro x hx hne
    simp only [List.mem_reverse, gensFor_mem, hg, List.mem_singleton] at hx
    exact absurd hx hne

/-- C139 (the headers): a header has the value of the last generator with its name that gives one, else its old values (or
it is not there). -/
theorem C139_headers (B : Libs) (G : GLib) (D : Draws) (mode : Mode) (ctx : Obj) (r r' : HttpRequest)
    (h : generateRequest B G D mode ctx r = .ok r') (n : Str) :
    headerOf r'.headers n =
      ((gensFor G r.rules r.gens .header).reverse.findSome? (headerAt G D mode ctx n)).or (headerOf r.headers n) :=
  headers_after G D mode ctx _ _ _ (request_parts h).2.1 n

/-- C139 (other headers): a header no generator of this mode is named after keeps its values. -/
theorem C139_header_kept (B : Libs) (G : GLib) (D : Draws) (mode : Mode) (ctx : Obj) (r r' : HttpRequest)
    (h : generateRequest B G D mode ctx r = .ok r') (n : Str)
    (hn : ∀ e ∈ buildGens r.rules r.gens .header, corresponds mode e.2 = true → firstField e.1 ≠ some n) :
    headerOf r'.headers n = headerOf r.headers n := by
  rw [C139_headers B G D mode ctx r r' h n, findSome_none]
  · simp
  · intro e he
    rw [List.mem_reverse, gensFor_mem] at he
    unfold headerAt textAt
    by_cases hc : corresponds mode e.2
    · rw [if_neg (hn e he hc)]
    · simp [hc]

/-- C139 (a generated header): a header with one generator has the text of the generator as its only value, whatever the order
of the generators; a missing header is added; if the generator fails nothing changes. -/
theorem C139_header_generated (B : Libs) (G : GLib) (D : Draws) (mode : Mode) (ctx : Obj) (r r' : HttpRequest)
    (h : generateRequest B G D mode ctx r = .ok r') (n : Str) (e : DocPath × AnyGen)
    (he : e ∈ buildGens r.rules r.gens .header) (hf : firstField e.1 = some n) (hc : corresponds mode e.2 = true)
    (hu : ∀ x ∈ buildGens r.rules r.gens .header, x ≠ e → firstField x.1 ≠ some n) :
    headerOf r'.headers n = match okPart (generateText G (D ["header".toList, e.1.expr]) ctx e.2) with
      | some v => some [v]
      | none => headerOf r.headers n := by
  rw [C139_headers B G D mode ctx r r' h n, findSome_unique _ _ e]
  · simp only [headerAt, hf, if_true, textAt, hc]
    cases okPart (generateText G (D ["header".toList, e.1.expr]) ctx e.2) <;> simp
  · rw [List.mem_reverse, gensFor_mem]; exact he
  · intro x hx hne
    rw [List.mem_reverse, gensFor_mem] at hx
    unfold headerAt
    rw [if_neg (hu x hx hne)]

/-- C139 (the query): the values of a parameter after the generators with its name, one after the other. -/
theorem C139_query (B : Libs) (G : GLib) (D : Draws) (mode : Mode) (ctx : Obj) (r r' : HttpRequest)
    (h : generateRequest B G D mode ctx r = .ok r') (n : Str) :
    paramOf r'.query n = (gensFor G r.rules r.gens .query).foldl
      (fun old e => if firstField e.1 = some n ∧ corresponds mode e.2 = true then paramAfter G D mode ctx e old else old)
      (paramOf r.query n) := query_after G D mode ctx _ _ _ (request_parts h).2.2.1 n

theorem foldl_skip {A S : Type} (f : S → A → S) (l : List A) (s : S) (h : ∀ x ∈ l, ∀ s, f s x = s) : l.foldl f s = s := by
  induction l generalizing s with
  | nil => rfl
  | cons x xs ih =>
    rw [List.foldl_cons, h x (List.mem_cons_self ..), ih _ (fun y hy => h y (List.mem_cons_of_mem _ hy))]

/-- C139 (other parameters): a parameter no generator of this mode is named after keeps its values. -/
theorem C139_param_kept (B : Libs) (G : GLib) (D : Draws) (mode : Mode) (ctx : Obj) (r r' : HttpRequest)
    (h : generateRequest B G D mode ctx r = .ok r') (n : Str)
    (hn : ∀ e ∈ buildGens r.rules r.gens .query, corresponds mode e.2 = true → firstField e.1 ≠ some n) :
    paramOf r'.query n = paramOf r.query n := by
  rw [C139_query B G D mode ctx r r' h n]
  apply foldl_skip
  intro e he s
  rw [gensFor_mem] at he
  rw [if_neg]
  exact fun hh => hn e he hh.2 hh.1

/-- The paths of the table of generators that is applied are different texts. -/
def DistinctKeys (gs : List (DocPath × AnyGen)) : Prop := (gs.map fun e => e.1.expr).Nodup

theorem insertGen_keys (k : DocPath) (g : AnyGen) (l : List (DocPath × AnyGen)) (x : Str) :
    x ∈ (insertGen k g l).map (fun e => e.1.expr) ↔ x ∈ l.map (fun e => e.1.expr) ∨ x = k.expr := by
  induction l with
  | nil => simp [insertGen]
  | cons e es ih =>
    unfold insertGen
    by_cases he : eqPath e.1 k
    · rw [if_pos he]
      have : e.1.expr = k.expr := by simpa [eqPath] using he
      simp only [List.map_cons, List.mem_cons]
      constructor
      · intro h; exact Or.inl h
      · rintro (h | h)
        · exact h
        · exact Or.inl (by rw [h, this])
    · rw [if_neg he]
      simp only [List.map_cons, List.mem_cons]
      rw [ih]
      constructor
      · rintro (h | h | h)
        · exact Or.inl (Or.inl h)
        · exact Or.inl (Or.inr h)
        · exact Or.inr h
      · rintro ((h | h) | h)
        · exact Or.inl h
        · exact Or.inr (Or.inl h)
        · exact Or.inr (Or.inr h)

theorem insertGen_distinct (k : DocPath) (g : AnyGen) (l : List (DocPath × AnyGen)) (h : DistinctKeys l) :
    DistinctKeys (insertGen k g l) := by
  unfold DistinctKeys at h ⊢
  induction l with
  | nil => simp [insertGen]
  | cons e es ih =>
    rw [List.map_cons, List.nodup_cons] at h
    unfold insertGen
    by_cases he : eqPath e.1 k
    · rw [if_pos he, List.map_cons, List.nodup_cons]
      exact h
    · rw [if_neg he, List.map_cons, List.nodup_cons]
      refine ⟨?_, ih h.2⟩
      rw [insertGen_keys]
      rintro (hh | hh)
      · exact h.1 hh
      · exact he (by simpa [eqPath] using hh)

theorem foldl_inv {A S : Type} (P : S → Prop) (f : S → A → S) (l : List A) (s : S) (h : ∀ s, ∀ x ∈ l, P s → P (f s x))
    (hs : P s) : P (l.foldl f s) := by
  induction l generalizing s with
  | nil => exact hs
  | cons x xs ih => exact ih _ (fun s y hy => h s y (List.mem_cons_of_mem _ hy)) (h s x (List.mem_cons_self ..) hs)

theorem buildGens_distinct (rules : MatchingRules) (gens : Generators) (c : GenCategory) :
    DistinctKeys (buildGens rules gens c) := by
  unfold buildGens addRuleGens
  refine foldl_inv DistinctKeys _ _ _ (fun s e _ hs => ?_) ?_
  · refine foldl_inv DistinctKeys _ _ _ (fun s r _ hs => ?_) hs
    exact foldl_inv DistinctKeys _ _ _ (fun s g _ hs => insertGen_distinct _ _ _ hs) hs
  · cases gens.find? fun e => decide (e.1 = c) with
    | none => simp [DistinctKeys]
    | some e =>
      simp only [Option.elim]
      exact foldl_inv DistinctKeys _ _ _ (fun s g _ hs => insertGen_distinct _ _ _ hs) (by simp [DistinctKeys])

theorem distinct_nodup {gs : List (DocPath × AnyGen)} (h : DistinctKeys gs) : gs.Nodup := by
  unfold DistinctKeys at h
  induction gs with
  | nil => exact List.nodup_nil
  | cons e es ih =>
    rw [List.map_cons, List.nodup_cons] at h
    rw [List.nodup_cons]
    exact ⟨fun hm => h.1 (List.mem_map_of_mem hm), ih h.2⟩

theorem foldl_one {A S : Type} (f : S → A → S) (l : List A) (s : S) (e : A) (he : e ∈ l) (hn : l.Nodup)
    (h : ∀ x ∈ l, x ≠ e → ∀ s, f s x = s) : l.foldl f s = f s e := by
  induction l generalizing s with
  | nil => exact absurd he (List.not_mem_nil)
  | cons x xs ih =>
    rw [List.nodup_cons] at hn
    rw [List.foldl_cons]
    by_cases hx : x = e
    · subst hx
      apply foldl_skip
      intro y hy s
      exact h y (List.mem_cons_of_mem _ hy) (fun e => hn.1 (e ▸ hy)) s
    · rw [h x (List.mem_cons_self ..) hx]
      apply ih _ _ hn.2 (fun y hy => h y (List.mem_cons_of_mem _ hy))
      rcases List.mem_cons.1 he with h | h
      · exact absurd h.symm hx
      · exact h

/-- C139 (a generated parameter): of a parameter with one generator each value is replaced by its own text of the generator,
the values it fails for stay; a missing parameter gets one value. -/
theorem C139_param_generated (B : Libs) (G : GLib) (D : Draws) (mode : Mode) (ctx : Obj) (r r' : HttpRequest)
    (h : generateRequest B G D mode ctx r = .ok r') (n : Str) (e : DocPath × AnyGen)
    (he : e ∈ buildGens r.rules r.gens .query) (hf : firstField e.1 = some n) (hc : corresponds mode e.2 = true)
    (hu : ∀ x ∈ buildGens r.rules r.gens .query, x ≠ e → firstField x.1 ≠ some n) :
    paramOf r'.query n = match paramOf r.query n with
      | some vs => some (vs.mapIdx fun i v =>
          (okPart (generateText G (D ["query".toList, e.1.expr, natStr i]) ctx e.2)).or v)
      | none => (okPart (generateText G (D ["query".toList, e.1.expr]) ctx e.2)).map fun v => [some v] := by
  rw [C139_query B G D mode ctx r r' h n, foldl_one _ _ _ e]
  · rw [if_pos ⟨hf, hc⟩]
    unfold paramAfter newValues textAt
    simp only [hc, if_true]
  · rw [gensFor_mem]; exact he
  · exact (G.order_perm _ _).nodup_iff.2 (distinct_nodup (buildGens_distinct _ _ _))
  · intro x hx hne s
    rw [gensFor_mem] at hx
    rw [if_neg]
    exact fun hh => hu x hx hne hh.1

/-- C139 (the body that stays): without generators for the body, without a body, or if the contents are neither JSON nor a
form, the body is unchanged. -/
theorem generateBody_kept (B : Libs) (G : GLib) (D : Draws) (mode : Mode) (ctx : Obj)
    (find : Json → List (VariantOf MatchingRule) → Option (VariantOf MatchingRule)) (gs : List (DocPath × AnyGen))
    (ct : Option ContentType) (body : FBody)
    (h : gs = [] ∨ isPresent body = false ∨ ∀ t, ct = some t → t.isJson = false ∧ (t.isXml = true ∨ t.isForm = false)) :
    generateBody B G D mode ctx find gs ct body = .ok body := by
  unfold generateBody
  rcases h with h | h | h
  · subst h; rfl
  · rw [h, Bool.and_false]; rfl
  · split
    · cases ct with
      | none => rfl
      | some t =>
        obtain ⟨h1, h2⟩ := h t rfl
        unfold processBody
        simp only [h1]
        rcases h2 with h2 | h2
        · simp [h2]
        · rw [h2]; simp
    · rfl

theorem C139_body_kept (B : Libs) (G : GLib) (D : Draws) (mode : Mode) (ctx : Obj) (r r' : HttpRequest)
    (h : generateRequest B G D mode ctx r = .ok r')
    (hb : buildGens r.rules r.gens .body = [] ∨ isPresent r.body = false ∨
      ∀ t, MatchResult.contentType B.file.P.uc B.bodies ⟨r'.headers, asBody r.body⟩ = some t →
        t.isJson = false ∧ (t.isXml = true ∨ t.isForm = false)) : r'.body = r.body := by
  have hp := (request_parts h).2.2.2.1
  rw [generateBody_kept] at hp
  · exact (Res.ok.inj hp).symm
  · rcases hb with hb | hb | hb
    · refine Or.inl ?_
      have := G.order_perm .body (buildGens r.rules r.gens .body)
      unfold gensFor
      rw [hb] at this ⊢
      exact this.eq_nil
    · exact Or.inr (Or.inl hb)
    · exact Or.inr (Or.inr hb)

theorem applyGens_nil {S : Type} (mode : Mode) (f : S → DocPath → AnyGen → Res S) (s : S) : applyGens mode f s [] = .ok s := rfl

/-- C139 (no generators): a request without generators (and without rules that bring some) is itself. -/
theorem C139_none (B : Libs) (G : GLib) (D : Draws) (mode : Mode) (ctx : Obj) (r : HttpRequest)
    (h : ∀ c, buildGens r.rules r.gens c = []) : generateRequest B G D mode ctx r = .ok r := by
  have hg : ∀ c, gensFor G r.rules r.gens c = [] := fun c => by
    have := G.order_perm c (buildGens r.rules r.gens c)
    unfold gensFor
    rw [h c] at this ⊢
    exact this.eq_nil
  unfold generateRequest
  rw [hg, hg, hg, hg]
  simp only [applyGens_nil, Res.bind_ok]
  rw [generateBody_kept _ _ _ _ _ _ _ _ _ (Or.inl rfl)]
  rfl

/-- The generators a table has for a category. -/
def tableOf (gens : Generators) (c : GenCategory) : List (DocPath × Generator) :=
  ((gens.find? fun e => decide (e.1 = c)).map (·.2)).getD []

/-- A rule that brings generators: for an array, with a variant that has some. -/
def BringsGens (r : MatchingRule) : Prop := ∃ vs, r = .arrayContains vs ∧ ∃ v ∈ vs, v.gens ≠ []

theorem ruleGens_nil (r : MatchingRule) (h : ¬ BringsGens r) : ruleGens r = [] := by
  cases r with
  | arrayContains vs =>
    simp only [ruleGens]
    rw [if_neg]
    intro hh
    rw [List.any_eq_true] at hh
    obtain ⟨v, hv, hg⟩ := hh
    exact h ⟨vs, rfl, v, hv, by simpa using hg⟩
  | _ => rfl

theorem insertGen_new (k : DocPath) (g : AnyGen) (l : List (DocPath × AnyGen)) (h : k.expr ∉ l.map fun e => e.1.expr) :
    insertGen k g l = l ++ [(k, g)] := by
  induction l with
  | nil => rfl
  | cons e es ih =>
    simp only [List.map_cons, List.mem_cons, not_or] at h
    unfold insertGen
    rw [if_neg (by simp [eqPath]; exact fun e => h.1 e.symm), ih h.2]
    rfl

theorem insert_all (l : List (DocPath × Generator)) (m : List (DocPath × AnyGen))
    (h : (m.map (fun e => e.1.expr) ++ l.map (fun e => e.1.expr)).Nodup) :
    l.foldl (fun gs g => insertGen g.1 (.gen g.2) gs) m = m ++ l.map fun e => (e.1, .gen e.2) := by
  induction l generalizing m with
  | nil => simp
  | cons e es ih =>
    rw [List.foldl_cons, insertGen_new]
    · rw [ih]
      · simp
      · simpa using h
    · intro hm
      rw [List.nodup_append] at h
      exact h.2.2 _ hm _ (by simp) rfl

/-- C139 (which generators are applied): those of the table of the request, if no matching rule of the category brings
generators of its own. -/
theorem C139_table (rules : MatchingRules) (gens : Generators) (c : GenCategory)
    (hd : ((tableOf gens c).map fun e => e.1.expr).Nodup)
    (hr : ∀ cat, rulesForCategory rules (ruleCategory c) = some cat → ∀ e ∈ cat.rules, ∀ r ∈ e.2.rules, ¬ BringsGens r) :
    buildGens rules gens c = (tableOf gens c).map fun e => (e.1, .gen e.2) := by
  unfold buildGens addRuleGens
  rw [foldl_skip]
  · unfold tableOf at hd ⊢
    cases hf : gens.find? fun e => decide (e.1 = c) with
    | none => rfl
    | some e =>
      rw [hf] at hd
      simp only [Option.elim, Option.map_some, Option.getD_some] at hd ⊢
      rw [insert_all _ _ (by simpa using hd)]
      rfl
  · intro e he s
    apply foldl_skip
    intro r hrr s
    rw [ruleGens_nil]
    · rfl
    · cases hc : rulesForCategory rules (ruleCategory c) with
      | none => rw [hc] at he; exact absurd he (List.not_mem_nil)
      | some cat => rw [hc] at he; exact hr cat hc e he r hrr

/-- The generator at a path of the table that is applied. -/
def genAt (l : List (DocPath × AnyGen)) (k : Str) : Option AnyGen := (l.find? fun e => decide (e.1.expr = k)).map (·.2)

theorem genAt_insert (k : DocPath) (g : AnyGen) (l : List (DocPath × AnyGen)) (x : Str) :
    genAt (insertGen k g l) x = if x = k.expr then some g else genAt l x := by
  have hcomm : ∀ a b : Str, (a = b) = (b = a) := fun a b => propext ⟨Eq.symm, Eq.symm⟩
  unfold genAt
  induction l with
  | nil => by_cases hx : x = k.expr <;> simp [insertGen, hx]; exact fun h => hx h.symm
  | cons e es ih =>
    unfold insertGen
    by_cases he : eqPath e.1 k
    · have hek : e.1.expr = k.expr := by simpa [eqPath] using he
      rw [if_pos he]
      by_cases hx : x = k.expr
      · simp [hx, hek]
      · have : ¬ k.expr = x := fun h => hx h.symm
        simp [hx, hek, this]
    · have hek : ¬ e.1.expr = k.expr := by simpa [eqPath] using he
      rw [if_neg he]
      by_cases hx : e.1.expr = x
      · have : ¬ x = k.expr := fun h => hek (hx.trans h)
        simp [hx, this]
      · rw [List.find?_cons_of_neg (by simpa using hx), ih]
        congr 1
        rw [List.find?_cons_of_neg (by simpa using hx)]

/-- C139 (array rules): at the path of a matching rule for arrays with generators, the generators of its variants are
applied, whatever the table of the request has there. -/
theorem C139_array_rule (rules : MatchingRules) (gens : Generators) (c : GenCategory) (cat : RuleCategory)
    (k : Category) (hk : RuleJson.catName k = genCatName c) (hc : rulesForCategory rules k = some cat) (pre post : List (DocPath × RuleList)) (key : DocPath)
    (l : RuleList) (hcat : cat.rules = pre ++ (key, l) :: post) (hpost : ∀ e ∈ post, e.1.expr ≠ key.expr)
    (vs : List (VariantOf MatchingRule)) (hl : l.rules = [.arrayContains vs]) (v : VariantOf MatchingRule) (hv : v ∈ vs)
    (hg : v.gens ≠ []) : genAt (buildGens rules gens c) key.expr = some (.variants vs) := by
  have hk' : ruleCategory c = k := by
    have : ∀ c k, RuleJson.catName k = genCatName c → ruleCategory c = k := by
      intro c k h
      cases c <;> cases k <;> first | rfl | exact absurd h (by decide)
    exact this c k hk
  unfold buildGens addRuleGens
  rw [hk']
  rw [hc]
  simp only [Option.map_some, Option.getD_some]
  rw [hcat, List.foldl_append, List.foldl_cons]
  generalize List.foldl _ _ pre = s
  have hr : ruleGens (.arrayContains vs) = [.variants vs] := by
    simp only [ruleGens]
    rw [if_pos]
    rw [List.any_eq_true]
    exact ⟨v, hv, by simpa using hg⟩
  simp only [hl, List.foldl_cons, List.foldl_nil, hr]
  refine foldl_inv (fun t => genAt t key.expr = some (.variants vs)) _ _ _ (fun s e he hs => ?_) ?_
  · refine foldl_inv (fun t => genAt t key.expr = some (.variants vs)) _ _ _ (fun s r _ hs => ?_) hs
    refine foldl_inv (fun t => genAt t key.expr = some (.variants vs)) _ _ _ (fun s g _ hs => ?_) hs
    rw [genAt_insert, if_neg (fun h => hpost e he h.symm)]
    exact hs
  · rw [genAt_insert, if_pos rfl]

/-! ### Failures -/

theorem foldR_total {S A : Type} (f : S → A → Res S) (l : List A) (h : ∀ s, ∀ a ∈ l, f s a ≠ .err) (s : S) :
    foldR f s l ≠ .err := by
  induction l generalizing s with
  | nil => simp [foldR]
  | cons a as ih =>
    simp only [foldR]
    cases hf : f s a with
    | ok t => exact ih (fun s x hx => h s x (List.mem_cons_of_mem _ hx)) t
    | err => exact absurd hf (h s a (List.mem_cons_self ..))
    | panic => simp

theorem foldR_panic {S A : Type} (f : S → A → Res S) (l : List A) (s : S) (h : foldR f s l = .panic) :
    ∃ s, ∃ a ∈ l, f s a = .panic := by
  induction l generalizing s with
  | nil => simp [foldR] at h
  | cons a as ih =>
    simp only [foldR] at h
    rcases bind_eq_panic h with hp | ⟨t, _, hp⟩
    · exact ⟨s, a, List.mem_cons_self .., hp⟩
    · obtain ⟨s, x, hx, hh⟩ := ih t hp
      exact ⟨s, x, List.mem_cons_of_mem _ hx, hh⟩

theorem foldR_panics {S A : Type} (f : S → A → Res S) (l : List A) (hn : ∀ s, ∀ a ∈ l, f s a ≠ .err) (a : A) (ha : a ∈ l)
    (h : ∀ s, f s a = .panic) (s : S) : foldR f s l = .panic := by
  induction l generalizing s with
  | nil => exact absurd ha (List.not_mem_nil)
  | cons x xs ih =>
    simp only [foldR]
    rcases List.mem_cons.1 ha with he | he
    · subst he; rw [h s]; rfl
    · cases hf : f s x with
      | ok t => exact ih (fun s y hy => hn s y (List.mem_cons_of_mem _ hy)) he t
      | err => exact absurd hf (hn s x (List.mem_cons_self ..))
      | panic => rfl

theorem pathStep_total (G : GLib) (D : Draws) (ctx : Obj) (p : Str) (k : DocPath) (g : AnyGen) :
    pathStep G D ctx p k g ≠ .err := orKeep_not_err _ _
theorem statusStep_total (G : GLib) (D : Draws) (ctx : Obj) (p : Nat) (k : DocPath) (g : AnyGen) :
    statusStep G D ctx p k g ≠ .err := orKeep_not_err _ _
theorem headerStep_total (G : GLib) (D : Draws) (ctx : Obj) (hs : Option HeaderMap) (k : DocPath) (g : AnyGen) :
    headerStep G D ctx hs k g ≠ .err := by
  unfold headerStep
  split
  · simp
  · split <;> exact orKeep_not_err _ _
theorem paramValues_total (f : Nat → Res Str) : ∀ (i : Nat) (vs : List (Option Str)), paramValues f i vs ≠ .err
  | _, [] => by simp [paramValues]
  | i, v :: vs => by
    simp only [paramValues]
    cases h : orKeep v ((f i).map some) with
    | ok w => simp only [Res.bind_ok]; rw [ne_eq, Res.map_eq_err]; exact paramValues_total f (i + 1) vs
    | err => exact absurd h (orKeep_not_err _ _)
    | panic => simp
theorem queryStep_total (G : GLib) (D : Draws) (ctx : Obj) (q : Option QueryMap) (k : DocPath) (g : AnyGen) :
    queryStep G D ctx q k g ≠ .err := by
  unfold queryStep
  split
  · simp
  · split
    · split
      · rw [ne_eq, Res.map_eq_err]; exact paramValues_total _ _ _
      · exact orKeep_not_err _ _
    · exact orKeep_not_err _ _

theorem applyGens_total {S : Type} (mode : Mode) (f : S → DocPath → AnyGen → Res S) (h : ∀ s k g, f s k g ≠ .err) (s : S)
    (gs : List (DocPath × AnyGen)) : applyGens mode f s gs ≠ .err := by
  apply foldR_total
  intro s a _
  split
  · exact h _ _ _
  · simp

theorem applyPointer_total (g : Str → Json → Res Json) (j : Json) (ptr : Str) : applyPointer g j ptr ≠ .err := by
  unfold applyPointer
  split
  · exact orKeep_not_err _ _
  · simp

theorem applyKey_total (key : DocPath) (g : Str → Json → Res Json) (j : Json) : ApplyGen.applyKey key g j ≠ .err := by
  unfold ApplyGen.applyKey
  simp only
  split
  · exact foldR_total _ _ (fun s a _ => applyPointer_total g s a) j
  · split
    · exact orKeep_not_err _ _
    · simp

theorem processJson_total (G : GLib) (D : Draws) (mode : Mode) (ctx : Obj)
    (find : Json → List (VariantOf MatchingRule) → Option (VariantOf MatchingRule)) (gs : List (DocPath × AnyGen)) (j : Json) :
    processJson G D mode ctx find gs j ≠ .err := by
  apply foldR_total
  intro s a _
  split
  · exact applyKey_total _ _ _
  · simp

theorem applyFormKey_total (key : DocPath) (g : Res Str) : ∀ (seen : List Str) (ps : Form.Params),
    applyFormKey key g seen ps ≠ .err
  | _, [] => by simp [applyFormKey]
  | seen, (k, v) :: ps => by
    unfold applyFormKey
    split
    · rw [ne_eq, Res.map_eq_err]; exact orKeep_not_err _ _
    · rw [ne_eq, Res.map_eq_err]; exact applyFormKey_total key g (k :: seen) ps

theorem processForm_total (G : GLib) (D : Draws) (mode : Mode) (ctx : Obj) (gs : List (DocPath × AnyGen)) (ps : Form.Params) :
    ApplyGen.processForm G D mode ctx gs ps ≠ .err := by
  apply foldR_total
  intro s a _
  split
  · exact applyFormKey_total _ _ _ _
  · simp

theorem generateBody_total (B : Libs) (G : GLib) (D : Draws) (mode : Mode) (ctx : Obj)
    (find : Json → List (VariantOf MatchingRule) → Option (VariantOf MatchingRule)) (gs : List (DocPath × AnyGen))
    (ct : Option ContentType) (body : FBody) : generateBody B G D mode ctx find gs ct body ≠ .err := by
  unfold generateBody
  split
  · unfold ApplyGen.processBody
    split
    · simp
    · split
      · split
        · rw [ne_eq, Res.map_eq_err]; exact processJson_total _ _ _ _ _ _ _
        · simp
      · split
        · simp
        · split
          · rw [ne_eq, Res.map_eq_err]; exact processForm_total _ _ _ _ _ _
          · simp
  · simp

theorem bind_total {A B : Type} {r : Res A} {f : A → Res B} (h : r ≠ .err) (hf : ∀ a, f a ≠ .err) : r.bind f ≠ .err := by
  cases r with
  | ok a => exact hf a
  | err => exact absurd rfl h
  | panic => simp

/-- C139 (failures are not errors): generating a request gives a request or panics; a value that cannot be generated is left
out. -/
theorem C139_total (B : Libs) (G : GLib) (D : Draws) (mode : Mode) (ctx : Obj) (r : HttpRequest) :
    generateRequest B G D mode ctx r ≠ .err := by
  refine bind_total (applyGens_total _ _ (pathStep_total G D ctx) _ _) fun _ => ?_
  refine bind_total (applyGens_total _ _ (headerStep_total G D ctx) _ _) fun _ => ?_
  refine bind_total (applyGens_total _ _ (queryStep_total G D ctx) _ _) fun _ => ?_
  rw [ne_eq, Res.map_eq_err]
  exact generateBody_total _ _ _ _ _ _ _ _ _

/-! ### C142 Generated responses -/

/-- C142 (the status): the status is the number of the last status generator that gives one (an integer within its limits or
a provider state value), else it is unchanged; the rules and generators never change. -/
theorem C142_status (B : Libs) (G : GLib) (D : Draws) (mode : Mode) (ctx : Obj) (r r' : HttpResponse)
    (h : generateResponse B G D mode ctx r = .ok r') :
    r'.status = ((gensFor G r.rules r.gens .status).reverse.findSome? fun e =>
      statusAt G D mode ctx ["status".toList, e.1.expr] e.2).getD r.status ∧ r'.rules = r.rules ∧ r'.gens = r.gens :=
  ⟨status_after G D mode ctx _ _ _ (response_parts h).1, (response_parts h).2.2.2⟩

/-- C142 (the headers): as for a request. -/
theorem C142_headers (B : Libs) (G : GLib) (D : Draws) (mode : Mode) (ctx : Obj) (r r' : HttpResponse)
    (h : generateResponse B G D mode ctx r = .ok r') (n : Str) :
    headerOf r'.headers n =
      ((gensFor G r.rules r.gens .header).reverse.findSome? (headerAt G D mode ctx n)).or (headerOf r.headers n) :=
  headers_after G D mode ctx _ _ _ (response_parts h).2.1 n

/-- C142 (failures are not errors). -/
theorem C142_total (B : Libs) (G : GLib) (D : Draws) (mode : Mode) (ctx : Obj) (r : HttpResponse) :
    generateResponse B G D mode ctx r ≠ .err := by
  refine bind_total (applyGens_total _ _ (statusStep_total G D ctx) _ _) fun _ => ?_
  refine bind_total (applyGens_total _ _ (headerStep_total G D ctx) _ _) fun _ => ?_
  rw [ne_eq, Res.map_eq_err]
  exact generateBody_total _ _ _ _ _ _ _ _ _

/-- C142 (the body): a response whose content is neither JSON nor a form, or that has no generators for the body, keeps it. -/
theorem C142_body_kept (B : Libs) (G : GLib) (D : Draws) (mode : Mode) (ctx : Obj) (r r' : HttpResponse)
    (h : generateResponse B G D mode ctx r = .ok r')
    (hb : buildGens r.rules r.gens .body = [] ∨ isPresent r.body = false ∨
      ∀ t, MatchResult.contentType B.file.P.uc B.bodies ⟨r'.headers, asBody r.body⟩ = some t →
        t.isJson = false ∧ (t.isXml = true ∨ t.isForm = false)) : r'.body = r.body := by
  have hp := (response_parts h).2.2.1
  rw [generateBody_kept] at hp
  · exact (Res.ok.inj hp).symm
  · rcases hb with hb | hb | hb
    · refine Or.inl ?_
      have := G.order_perm .body (buildGens r.rules r.gens .body)
      unfold gensFor
      rw [hb] at this ⊢
      exact this.eq_nil
    · exact Or.inr (Or.inl hb)
    · exact Or.inr (Or.inr hb)

/-- C142 (random status): whatever is drawn, a generated random status lies between its limits, if these are in order and are
possible for a status. -/
theorem C142_random_status (G : GLib) (r : Rng) (ctx : Obj) (lo hi : Int) (h0 : 0 ≤ lo) (h1 : lo ≤ hi) (h2 : hi < 65535) :
    ∃ n : Nat, generateU16 G r ctx (.gen (.randomInt lo hi)) = .ok n ∧ lo ≤ n ∧ n ≤ hi := by
  have ha : Generate.asU16 lo = lo := by unfold Generate.asU16; omega
  have hb : Generate.asU16 hi = hi := by unfold Generate.asU16; omega
  have hlt : lo < hi + 1 := by omega
  have hp := r.pick_range 0 lo (hi + 1) hlt
  refine ⟨(r.pick 0 lo (hi + 1)).toNat, ?_, ?_, ?_⟩
  · have hs : satAddU16 hi = hi + 1 := by unfold satAddU16; rw [if_neg (by omega)]
    simp only [generateU16, randomU16, ha, hb, hs, genRange, if_pos hlt]
    rfl
  · omega
  · omega

/-! ### C141 Values from provider states -/

open ExprProps (Piece template combined values NoOpen)

/-- The values a provider state generator can refer to: those of the entry `providerState` of the context if this is an
object, else all of them. -/
def stateValue (ctx : Obj) (n : Str) : Option Json := Json.lookup n (stateContext ctx)

/-- C141 (which values count). -/
theorem C141_context (ctx : Obj) (n : Str) :
    stateValue ctx n = match RuleJson.get "providerState" ctx with
      | some (.obj m) => Json.lookup n m
      | _ => Json.lookup n ctx := by
  unfold stateValue stateContext
  generalize RuleJson.get "providerState" ctx = o
  cases o with
  | none => rfl
  | some j => cases j <;> rfl

theorem contains_template (p : Str × Str) (ps : List (Str × Str)) (rest : Str) :
    Expr.containsExpressions (template (p :: ps) rest) = true := by
  unfold Expr.containsExpressions
  cases h : Expr.findOpen (template (p :: ps) rest) with
  | some i => rfl
  | none =>
    exfalso
    have := ExprProps.findOpen_none.1 h
    obtain ⟨a, b⟩ := p
    exact this a (b ++ '}' :: template ps rest) rfl

/-- C141 (the value of an expression): names in `${…}` are replaced by their values, an expression that is one name gives
the value itself; an expression without `${` is the name of a value. -/
theorem C141_expression (ctx : Obj) (p : Str × Str) (ps : List (Str × Str)) (rest : Str)
    (h : ∀ q ∈ p :: ps, Piece (stateValue ctx) q) (hr : NoOpen rest) :
    fromContext (template (p :: ps) rest) (stateContext ctx) = .ok (combined (values (stateValue ctx) (p :: ps) rest)) := by
  unfold fromContext
  rw [contains_template, if_pos rfl]
  exact ExprProps.C38_substitution (stateValue ctx) (p :: ps) rest h hr

theorem C141_name (ctx : Obj) (n : Str) (h : NoOpen n) :
    fromContext n (stateContext ctx) = Expr.okOr (stateValue ctx n) := by
  unfold fromContext Expr.containsExpressions
  rw [ExprProps.findOpen_none.2 h]
  rfl

/-- C141 (a missing value): an expression with a name that has no value gives nothing. -/
theorem C141_missing (ctx : Obj) (ps : List (Str × Str)) (t n s : Str) (h : ∀ p ∈ ps, Piece (stateValue ctx) p)
    (ht : NoOpen t) (htc : '}' ∉ t) (hn : '}' ∉ n) (hne : n ≠ []) (hv : stateValue ctx n = none) :
    fromContext (template ps (t ++ '$' :: '{' :: (n ++ '}' :: s))) (stateContext ctx) = .err := by
  unfold fromContext
  have hc : Expr.containsExpressions (template ps (t ++ '$' :: '{' :: (n ++ '}' :: s))) = true := by
    cases ps with
    | nil =>
      unfold Expr.containsExpressions
      cases h : Expr.findOpen (template [] (t ++ '$' :: '{' :: (n ++ '}' :: s))) with
      | some i => rfl
      | none => exact absurd rfl (ExprProps.findOpen_none.1 h t (n ++ '}' :: s))
    | cons p ps => exact contains_template p ps _
  rw [hc, if_pos rfl]
  exact ExprProps.C38_undefined (stateValue ctx) ps t n s h ht htc hn hne hv

/-- C141 (texts): a path, header, parameter or form value with a provider state generator without a data type gets the text
of the value (a string as it is, null as the empty text, other values as JSON). -/
theorem C141_text (G : GLib) (r : Rng) (ctx : Obj) (e : Str) (v : Json) (h : fromContext e (stateContext ctx) = .ok v)
    (dt : Option DataType) (hdt : dt = none ∨ dt = some .raw ∨ dt = some .string) :
    generateText G r ctx (.gen (.providerState e dt)) = .ok v.toStr := by
  simp only [generateText, h, Res.bind_ok]
  rcases hdt with rfl | rfl | rfl <;> rfl

/-- C141 (JSON): in a JSON body it is the value itself. -/
theorem C141_json (G : GLib) (r : Rng) (ctx : Obj) (e : Str) (v old : Json) (h : fromContext e (stateContext ctx) = .ok v)
    (dt : Option DataType) (hdt : dt = none ∨ dt = some .raw) :
    generatePlain G r ctx (.providerState e dt) old = .ok v := by
  simp only [generatePlain, h, Res.bind_ok]
  rcases hdt with rfl | rfl <;> rfl

/-- C141 (only for providers): provider state generators are not applied for a consumer, the URL of the mock server is not
applied for a provider; all others are applied for both. -/
theorem C141_mode (mode : Mode) (g : AnyGen) :
    corresponds mode g = true ↔ match g with
      | .gen (.providerState _ _) => mode = .provider
      | .gen (.mockServerURL _ _) => mode = .consumer
      | _ => True := by
  cases g with
  | gen g => cases g <;> cases mode <;> simp [corresponds]
  | variants vs => simp [corresponds]

/-- A value that can be converted to a data type as text. -/
def Convertible (G : GLib) : DataType → Json → Prop
  | .string, _ => True
  | .raw, _ => True
  | .integer, .str s => (parseI64 s).isSome
  | .float, .str s => (G.parseFloat s).isSome
  | .decimal, .str s => (G.parseFloat s).isSome
  | .boolean, .str s => (Expr.parseBool s).isSome
  | _, .arr _ => False
  | _, .obj _ => False
  | _, _ => True

theorem valueText_panic (G : GLib) (dt : DataType) (v : Json) : valueText G dt v = .panic ↔ ¬ Convertible G dt v := by
  cases dt <;> cases v with
  | num n => cases n <;> simp [valueText, orPanic, intValueText, floatValueText, boolValue, Convertible]
  | str s =>
    first
      | simp [valueText, Convertible]; done
      | (simp only [valueText, intValueText, floatValueText, boolValue, Convertible]
         first
          | (cases parseI64 s <;> simp [orPanic]; done)
          | (cases G.parseFloat s <;> simp [orPanic]; done)
          | (cases Expr.parseBool s <;> simp [orPanic]; done))
  | _ => simp [valueText, orPanic, intValueText, floatValueText, boolValue, Convertible]

/-- C141 (panics): a provider state generator for a text panics exactly if its expression has a closing brace before the
opening of an expression that is reached, or if its value cannot be converted to its data type. -/
theorem C141_text_panics (G : GLib) (r : Rng) (ctx : Obj) (e : Str) (dt : Option DataType) :
    generateText G r ctx (.gen (.providerState e dt)) = .panic ↔
      Expr.parseExpression (stateValue ctx) e = .panic ∨
      ∃ v, fromContext e (stateContext ctx) = .ok v ∧ ¬ Convertible G (dt.getD .raw) v := by
  simp only [generateText]
  have hp : fromContext e (stateContext ctx) = .panic ↔ Expr.parseExpression (stateValue ctx) e = .panic := by
    unfold fromContext
    by_cases hc : Expr.containsExpressions e
    · rw [if_pos hc]; exact Iff.rfl
    · rw [if_neg hc]
      unfold Expr.parseExpression
      rw [if_neg hc]
      cases Json.lookup e (stateContext ctx) <;> simp [Expr.okOr]
  rw [← hp]
  cases hf : fromContext e (stateContext ctx) with
  | ok v => simp [valueText_panic]
  | err => simp
  | panic => simp

/-- C141 (no panic in JSON): in a JSON body a value that cannot be converted is left out: only the closing brace panics. -/
theorem C141_json_panics (G : GLib) (r : Rng) (ctx : Obj) (e : Str) (dt : Option DataType) (old : Json) :
    generatePlain G r ctx (.providerState e dt) old = .panic ↔ Expr.parseExpression (stateValue ctx) e = .panic := by
  simp only [generatePlain]
  have hp : fromContext e (stateContext ctx) = .panic ↔ Expr.parseExpression (stateValue ctx) e = .panic := by
    unfold fromContext
    by_cases hc : Expr.containsExpressions e
    · rw [if_pos hc]; exact Iff.rfl
    · rw [if_neg hc]
      unfold Expr.parseExpression
      rw [if_neg hc]
      cases Json.lookup e (stateContext ctx) <;> simp [Expr.okOr]
  rw [← hp]
  have ho : ∀ o : Option Json, Expr.okOr o ≠ .panic := fun o => by cases o <;> simp [Expr.okOr]
  cases hf : fromContext e (stateContext ctx) with
  | ok v =>
    have : ∀ d v, Expr.asJson G.f64 d v ≠ .panic := by
      intro d v
      cases d <;> cases v with
      | num n => cases n <;> simp [Expr.asJson, Expr.asJson.toFloat]
      | _ => first
        | simp [Expr.asJson, Expr.asJson.toFloat]; done
        | (simp only [Expr.asJson, Expr.asJson.toFloat]; exact ho _)
    simp only [Res.bind_ok]
    constructor
    · intro h; exact absurd h (this _ _)
    · intro h; cases h
  | err => simp
  | panic => simp

/-- C141 (the path): a request with a provider state generator for its path is sent with the text of the value. -/
theorem C141_path (B : Libs) (G : GLib) (D : Draws) (ctx : Obj) (r r' : HttpRequest) (key : DocPath) (e : Str) (v : Json)
    (hg : buildGens r.rules r.gens .path = [(key, .gen (.providerState e none))])
    (hv : fromContext e (stateContext ctx) = .ok v) (h : generateRequest B G D .provider ctx r = .ok r') :
    r'.path = v.toStr := by
  rw [C139_path_one B G D .provider ctx r r' key _ hg h]
  unfold textAt
  rw [if_pos (show corresponds .provider (.gen (.providerState e none)) = true from rfl), C141_text G _ ctx e v hv none (Or.inl rfl)]
  rfl

/-- C141 (the path without the value): if a name has no value the request keeps its path. -/
theorem C141_path_missing (B : Libs) (G : GLib) (D : Draws) (ctx : Obj) (r r' : HttpRequest) (key : DocPath) (e : Str)
    (dt : Option DataType) (hg : buildGens r.rules r.gens .path = [(key, .gen (.providerState e dt))])
    (hv : fromContext e (stateContext ctx) = .err) (h : generateRequest B G D .provider ctx r = .ok r') :
    r'.path = r.path := by
  rw [C139_path_one B G D .provider ctx r r' key _ hg h]
  unfold textAt
  rw [if_pos (show corresponds .provider (.gen (.providerState e dt)) = true from rfl)]
  simp only [generateText, hv, Res.bind_err]
  rfl

/-- C141 (the verifier panics): a value of a provider state that cannot be converted to the data type of a path generator is
a panic, not a failed interaction. -/
theorem C141_request_panics (B : Libs) (G : GLib) (D : Draws) (ctx : Obj) (r : HttpRequest) (key : DocPath) (e : Str)
    (dt : DataType) (v : Json) (hg : (key, AnyGen.gen (.providerState e (some dt))) ∈ buildGens r.rules r.gens .path)
    (hv : fromContext e (stateContext ctx) = .ok v) (hc : ¬ Convertible G dt v) :
    generateRequest B G D .provider ctx r = .panic := by
  unfold generateRequest
  have : applyGens .provider (pathStep G D ctx) r.path (gensFor G r.rules r.gens .path) = .panic := by
    refine foldR_panics _ _ ?_ _ ((gensFor_mem _ _ _ _ _).2 hg) ?_ _
    · intro s a _
      split
      · exact pathStep_total _ _ _ _ _ _
      · simp
    · intro s
      rw [if_pos (show corresponds .provider (.gen (.providerState e (some dt))) = true from rfl)]
      exact orKeep_panic.2 ((C141_text_panics _ _ _ _ _).2 (Or.inr ⟨v, hv, hc⟩))
  rw [this]
  rfl




end ApplyGenProps
end Verif
