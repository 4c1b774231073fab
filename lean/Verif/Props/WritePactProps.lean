import Verif.WritePact
import Verif.Props.MergeProps

/-
  C32: writing a pact file.
-/

set_option autoImplicit false

namespace Verif
namespace WritePactProps
open WritePact

variable {P : Type}

/-- Specification: what one uninterrupted call leaves in the file, if it succeeds. -/
def writeOnce (merge : P → P → Option P) (w : Writer P) : File P → Option (File P)
  | .absent => some (.pact w.pact)
  | .broken => if w.overwrite then some (.pact w.pact) else none
  | .pact e => if w.overwrite then some (.pact w.pact) else (merge w.pact e).map .pact

/-- Specification: the file after the calls in `log` (latest first), one after the other. -/
def writeAll (merge : P → P → Option P) (ws : Nat → Writer P) (f : File P) : List Nat → Option (File P)
  | [] => some f
  | w :: log => (writeAll merge ws f log).bind (writeOnce merge (ws w))

/-- The writers run in one process. -/
def OneProcess (ws : Nat → Writer P) : Prop := ∀ v w, (ws v).process = (ws w).process

/-- A writer that is inside the mutex. -/
def Inside : PC P → Prop
  | .idle => False
  | .done => False
  | .failed => False
  | _ => True

/-- Invariant for a single process. -/
structure Inv (merge : P → P → Option P) (ws : Nat → Writer P) (f0 : File P) (s : State P) : Prop where
  inside : ∀ w, Inside (s.pc w) → s.mutex (ws w).process = some w
  flock : ∀ v, s.flock = some v → ∃ m, s.pc v = .truncated m
  free : (∀ w m, s.pc w ≠ .created m ∧ s.pc w ≠ .truncated m) → writeAll merge ws f0 s.log = some s.file
  merged : ∀ w m, s.pc w = .merged m → writeOnce merge (ws w) s.file = some (.pact m)
  fresh : ∀ w, s.pc w = .fresh → writeOnce merge (ws w) s.file = some (.pact (ws w).pact)
  created : ∀ w m, s.pc w = .created m → s.file = .broken ∧
    ∃ f, writeAll merge ws f0 s.log = some f ∧ writeOnce merge (ws w) f = some (.pact m)
  truncated : ∀ w m, s.pc w = .truncated m → s.file = .broken ∧
    ∃ f, writeAll merge ws f0 s.log = some f ∧ writeOnce merge (ws w) f = some (.pact m)

theorem upd_same {A : Type} (f : Nat → A) (n : Nat) (a : A) : upd f n a n = a := by simp [upd]
theorem upd_ne {A : Type} (f : Nat → A) {n m : Nat} (a : A) (h : m ≠ n) : upd f n a m = f m := by simp [upd, h]

theorem inv_init (merge : P → P → Option P) (ws : Nat → Writer P) (f0 : File P) :
    Inv merge ws f0 (initial f0) where
  inside := by intro w h; exact h.elim
  flock := by intro v h; cases h
  free := by intro _; rfl
  merged := by intro w m h; cases h
  fresh := by intro w h; cases h
  created := by intro w m h; cases h
  truncated := by intro w m h; cases h

theorem writeOnce_overwrite (merge : P → P → Option P) (w : Writer P) (f : File P)
    (h : w.overwrite = true ∨ f = .absent) : writeOnce merge w f = some (.pact w.pact) := by
  rcases h with h | h
  · cases f <;> simp [writeOnce, h]
  · subst h; rfl

theorem inv_step {merge : P → P → Option P} {ws : Nat → Writer P} {f0 : File P} (h1 : OneProcess ws)
    {s t : State P} (hi : Inv merge ws f0 s) (st : Step ws merge s t) : Inv merge ws f0 t := by
  -- a writer inside the mutex excludes all others
  have excl : ∀ v w, Inside (s.pc v) → Inside (s.pc w) → v = w := by
    intro v w hv hw
    have a := hi.inside v hv
    have b := hi.inside w hw
    rw [h1 v w, b] at a
    exact (Option.some.inj a).symm
  cases st with
  | lock w h hm =>
    have none_inside : ∀ v, ¬ Inside (s.pc v) := by
      intro v hv
      have := hi.inside v hv
      rw [h1 v w, hm] at this
      cases this
    have pcs : ∀ v, v ≠ w → ¬ Inside (upd s.pc w .locked v) := fun v hv => by
      rw [upd_ne _ _ hv]; exact none_inside v
    refine ⟨?_, ?_, ?_, ?_, (by
      intro v hv
      by_cases e : v = w
      · subst e; simp only [upd_same] at hv; cases hv
      · exact absurd (by simp only at hv; rw [hv]; trivial) (pcs v e)), ?_, ?_⟩
    · intro v hv
      by_cases e : v = w
      · subst e; simp only [upd_same]
      · exact absurd hv (pcs v e)
    · intro v hv
      obtain ⟨m, hm⟩ := hi.flock v hv
      exact absurd (by rw [hm]; trivial) (none_inside v)
    · intro _
      apply hi.free
      intro v m
      constructor <;> intro e <;> exact none_inside v (by rw [e]; trivial)
    · intro v m hv
      by_cases e : v = w
      · subst e; simp only [upd_same] at hv; cases hv
      · exact absurd (by simp only at hv; rw [hv]; trivial) (pcs v e)
    · intro v m hv
      by_cases e : v = w
      · subst e; simp only [upd_same] at hv; cases hv
      · exact absurd (by simp only at hv; rw [hv]; trivial) (pcs v e)
    · intro v m hv
      by_cases e : v = w
      · subst e; simp only [upd_same] at hv; cases hv
      · exact absurd (by simp only at hv; rw [hv]; trivial) (pcs v e)
  | read w e m h ho hf hl hm =>
    have hw : Inside (s.pc w) := by rw [h]; trivial
    have others : ∀ v, v ≠ w → ¬ Inside (s.pc v) := fun v hv hin => hv (excl v w hin hw)
    have hfree : writeAll merge ws f0 s.log = some s.file := by
      apply hi.free
      intro v m'
      constructor <;> intro e' <;>
      · have := excl v w (by rw [e']; trivial) hw
        subst this; rw [h] at e'; cases e'
    refine ⟨?_, ?_, fun _ => hfree, ?_, (by
      intro v hv
      by_cases e' : v = w
      · subst e'; simp only [upd_same] at hv; cases hv
      · simp only [upd_ne _ _ e'] at hv
        exact absurd (by rw [hv]; trivial) (others v e')), ?_, ?_⟩
    · intro v hv
      by_cases e' : v = w
      · subst e'; exact hi.inside v hw
      · simp only [upd_ne _ _ e'] at hv; exact hi.inside v hv
    · intro v hv; simp only [hl] at hv; cases hv
    · intro v m' hv
      by_cases e' : v = w
      · subst e'
        simp only [upd_same, PC.merged.injEq] at hv
        subst hv
        simp only [hf, writeOnce, ho, hm]
        rfl
      · simp only [upd_ne _ _ e'] at hv
        exact absurd (by rw [hv]; trivial) (others v e')
    · intro v m' hv
      by_cases e' : v = w
      · subst e'; simp only [upd_same] at hv; cases hv
      · simp only [upd_ne _ _ e'] at hv
        exact absurd (by rw [hv]; trivial) (others v e')
    · intro v m' hv
      by_cases e' : v = w
      · subst e'; simp only [upd_same] at hv; cases hv
      · simp only [upd_ne _ _ e'] at hv
        exact absurd (by rw [hv]; trivial) (others v e')
  | conflict w e h ho hf hm =>
    have hw : Inside (s.pc w) := by rw [h]; trivial
    have others : ∀ v, v ≠ w → ¬ Inside (s.pc v) := fun v hv hin => hv (excl v w hin hw)
    have pcs : ∀ v, ¬ Inside (upd s.pc w .failed v) := by
      intro v hv
      by_cases e' : v = w
      · subst e'; rw [upd_same] at hv; exact hv
      · rw [upd_ne _ _ e'] at hv; exact others v e' hv
    have hfree : writeAll merge ws f0 s.log = some s.file := by
      apply hi.free
      intro v m'
      constructor <;> intro e' <;>
      · have := excl v w (by rw [e']; trivial) hw
        subst this; rw [h] at e'; cases e'
    refine ⟨fun v hv => absurd hv (pcs v), ?_, fun _ => hfree, ?_, fun v hv => absurd (by simp only at hv; rw [hv]; trivial) (pcs v), ?_, ?_⟩
    · intro v hv
      obtain ⟨m', hm'⟩ := hi.flock v hv
      have := excl v w (by rw [hm']; trivial) hw
      subst this; rw [h] at hm'; cases hm'
    · intro v m' hv; exact absurd (by simp only at hv; rw [hv]; trivial) (pcs v)
    · intro v m' hv; exact absurd (by simp only at hv; rw [hv]; trivial) (pcs v)
    · intro v m' hv; exact absurd (by simp only at hv; rw [hv]; trivial) (pcs v)
  | unreadable w h ho hf =>
    have hw : Inside (s.pc w) := by rw [h]; trivial
    have others : ∀ v, v ≠ w → ¬ Inside (s.pc v) := fun v hv hin => hv (excl v w hin hw)
    have pcs : ∀ v, ¬ Inside (upd s.pc w .failed v) := by
      intro v hv
      by_cases e' : v = w
      · subst e'; rw [upd_same] at hv; exact hv
      · rw [upd_ne _ _ e'] at hv; exact others v e' hv
    have hfree : writeAll merge ws f0 s.log = some s.file := by
      apply hi.free
      intro v m'
      constructor <;> intro e' <;>
      · have := excl v w (by rw [e']; trivial) hw
        subst this; rw [h] at e'; cases e'
    refine ⟨fun v hv => absurd hv (pcs v), ?_, fun _ => hfree, ?_, fun v hv => absurd (by simp only at hv; rw [hv]; trivial) (pcs v), ?_, ?_⟩
    · intro v hv
      obtain ⟨m', hm'⟩ := hi.flock v hv
      have := excl v w (by rw [hm']; trivial) hw
      subst this; rw [h] at hm'; cases hm'
    · intro v m' hv; exact absurd (by simp only at hv; rw [hv]; trivial) (pcs v)
    · intro v m' hv; exact absurd (by simp only at hv; rw [hv]; trivial) (pcs v)
    · intro v m' hv; exact absurd (by simp only at hv; rw [hv]; trivial) (pcs v)
  | choose w h ho =>
    have hw : Inside (s.pc w) := by rw [h]; trivial
    have others : ∀ v, v ≠ w → ¬ Inside (s.pc v) := fun v hv hin => hv (excl v w hin hw)
    have hfree : writeAll merge ws f0 s.log = some s.file := by
      apply hi.free
      intro v m'
      constructor <;> intro e' <;>
      · have := excl v w (by rw [e']; trivial) hw
        subst this; rw [h] at e'; cases e'
    refine ⟨?_, ?_, fun _ => hfree, ?_, ?_, ?_, ?_⟩
    · intro v hv
      by_cases e' : v = w
      · subst e'; exact hi.inside v hw
      · simp only [upd_ne _ _ e'] at hv; exact hi.inside v hv
    · intro v hv
      obtain ⟨m', hm'⟩ := hi.flock v hv
      have := excl v w (by rw [hm']; trivial) hw
      subst this; rw [h] at hm'; cases hm'
    · intro v m' hv
      by_cases e' : v = w
      · subst e'; simp only [upd_same] at hv; cases hv
      · simp only [upd_ne _ _ e'] at hv
        exact absurd (by rw [hv]; trivial) (others v e')
    · intro v hv
      by_cases e' : v = w
      · subst e'; exact writeOnce_overwrite merge (ws v) s.file ho
      · simp only [upd_ne _ _ e'] at hv
        exact absurd (by rw [hv]; trivial) (others v e')
    · intro v m' hv
      by_cases e' : v = w
      · subst e'; simp only [upd_same] at hv; cases hv
      · simp only [upd_ne _ _ e'] at hv
        exact absurd (by rw [hv]; trivial) (others v e')
    · intro v m' hv
      by_cases e' : v = w
      · subst e'; simp only [upd_same] at hv; cases hv
      · simp only [upd_ne _ _ e'] at hv
        exact absurd (by rw [hv]; trivial) (others v e')
  | create w h =>
    have hw : Inside (s.pc w) := by rw [h]; trivial
    have others : ∀ v, v ≠ w → ¬ Inside (s.pc v) := fun v hv hin => hv (excl v w hin hw)
    have hfree : writeAll merge ws f0 s.log = some s.file := by
      apply hi.free
      intro v m'
      constructor <;> intro e' <;>
      · have := excl v w (by rw [e']; trivial) hw
        subst this; rw [h] at e'; cases e'
    refine ⟨?_, ?_, ?_, ?_, (by
      intro v hv
      by_cases e' : v = w
      · subst e'; simp only [upd_same] at hv; cases hv
      · simp only [upd_ne _ _ e'] at hv
        exact absurd (by rw [hv]; trivial) (others v e')), ?_, ?_⟩
    · intro v hv
      by_cases e' : v = w
      · subst e'; exact hi.inside v hw
      · simp only [upd_ne _ _ e'] at hv; exact hi.inside v hv
    · intro v hv
      obtain ⟨m', hm'⟩ := hi.flock v hv
      have := excl v w (by rw [hm']; trivial) hw
      subst this; rw [h] at hm'; cases hm'
    · intro hno
      exact absurd (upd_same s.pc w _) (hno w (ws w).pact).1
    · intro v m' hv
      by_cases e' : v = w
      · subst e'; simp only [upd_same] at hv; cases hv
      · simp only [upd_ne _ _ e'] at hv
        exact absurd (by rw [hv]; trivial) (others v e')
    · intro v m' hv
      by_cases e' : v = w
      · subst e'
        simp only [upd_same, PC.created.injEq] at hv
        subst hv
        exact ⟨rfl, s.file, hfree, hi.fresh v h⟩
      · simp only [upd_ne _ _ e'] at hv
        exact absurd (by rw [hv]; trivial) (others v e')
    · intro v m' hv
      by_cases e' : v = w
      · subst e'; simp only [upd_same] at hv; cases hv
      · simp only [upd_ne _ _ e'] at hv
        exact absurd (by rw [hv]; trivial) (others v e')
  | truncate w m h hl =>
    have hw : Inside (s.pc w) := by rw [h]; trivial
    have others : ∀ v, v ≠ w → ¬ Inside (s.pc v) := fun v hv hin => hv (excl v w hin hw)
    have hfree : writeAll merge ws f0 s.log = some s.file := by
      apply hi.free
      intro v m'
      constructor <;> intro e' <;>
      · have := excl v w (by rw [e']; trivial) hw
        subst this; rw [h] at e'; cases e'
    refine ⟨?_, ?_, ?_, ?_, (by
      intro v hv
      by_cases e' : v = w
      · subst e'; simp only [upd_same] at hv; cases hv
      · simp only [upd_ne _ _ e'] at hv
        exact absurd (by rw [hv]; trivial) (others v e')), ?_, ?_⟩
    · intro v hv
      by_cases e' : v = w
      · subst e'; exact hi.inside v hw
      · simp only [upd_ne _ _ e'] at hv; exact hi.inside v hv
    · intro v hv
      simp only [Option.some.injEq] at hv
      subst hv
      exact ⟨m, upd_same _ _ _⟩
    · intro hno
      exact absurd (upd_same s.pc w _) (hno w m).2
    · intro v m' hv
      by_cases e' : v = w
      · subst e'; simp only [upd_same] at hv; cases hv
      · simp only [upd_ne _ _ e'] at hv
        exact absurd (by rw [hv]; trivial) (others v e')
    · intro v m' hv
      by_cases e' : v = w
      · subst e'; simp only [upd_same] at hv; cases hv
      · simp only [upd_ne _ _ e'] at hv
        exact absurd (by rw [hv]; trivial) (others v e')
    · intro v m' hv
      by_cases e' : v = w
      · subst e'
        simp only [upd_same, PC.truncated.injEq] at hv
        subst hv
        exact ⟨rfl, s.file, hfree, hi.merged v m h⟩
      · simp only [upd_ne _ _ e'] at hv
        exact absurd (by rw [hv]; trivial) (others v e')
  | write w m h =>
    have hw : Inside (s.pc w) := by rw [h]; trivial
    have others : ∀ v, v ≠ w → ¬ Inside (s.pc v) := fun v hv hin => hv (excl v w hin hw)
    have pcs : ∀ v, ¬ Inside (upd s.pc w .done v) := by
      intro v hv
      by_cases e' : v = w
      · subst e'; rw [upd_same] at hv; exact hv
      · rw [upd_ne _ _ e'] at hv; exact others v e' hv
    obtain ⟨_, f, hf1, hf2⟩ := hi.truncated w m h
    refine ⟨fun v hv => absurd hv (pcs v), ?_, ?_, ?_, fun v hv => absurd (by simp only at hv; rw [hv]; trivial) (pcs v), ?_, ?_⟩
    · intro v hv; cases hv
    · intro _
      simp only [writeAll, hf1, Option.bind_some]
      exact hf2
    · intro v m' hv; exact absurd (by simp only at hv; rw [hv]; trivial) (pcs v)
    · intro v m' hv; exact absurd (by simp only at hv; rw [hv]; trivial) (pcs v)
    · intro v m' hv; exact absurd (by simp only at hv; rw [hv]; trivial) (pcs v)
  | writeNew w m h hl =>
    have hw : Inside (s.pc w) := by rw [h]; trivial
    have others : ∀ v, v ≠ w → ¬ Inside (s.pc v) := fun v hv hin => hv (excl v w hin hw)
    have pcs : ∀ v, ¬ Inside (upd s.pc w .done v) := by
      intro v hv
      by_cases e' : v = w
      · subst e'; rw [upd_same] at hv; exact hv
      · rw [upd_ne _ _ e'] at hv; exact others v e' hv
    obtain ⟨_, f, hf1, hf2⟩ := hi.created w m h
    refine ⟨fun v hv => absurd hv (pcs v), ?_, ?_, ?_, fun v hv => absurd (by simp only at hv; rw [hv]; trivial) (pcs v), ?_, ?_⟩
    · intro v hv; simp only [hl] at hv; cases hv
    · intro _
      simp only [writeAll, hf1, Option.bind_some]
      exact hf2
    · intro v m' hv; exact absurd (by simp only at hv; rw [hv]; trivial) (pcs v)
    · intro v m' hv; exact absurd (by simp only at hv; rw [hv]; trivial) (pcs v)
    · intro v m' hv; exact absurd (by simp only at hv; rw [hv]; trivial) (pcs v)
  | lockTimeout w v hl hv h =>
    obtain ⟨m, hm⟩ := hi.flock v hl
    have : v = w := excl v w (by rw [hm]; trivial) (by
      rcases h with h | ⟨m, h⟩ | ⟨m, h⟩ <;> rw [h] <;> trivial)
    exact absurd this hv

theorem reach_inv {merge : P → P → Option P} {ws : Nat → Writer P} {f0 : File P} (h1 : OneProcess ws)
    {s : State P} (h : Reach ws merge f0 s) : Inv merge ws f0 s := by
  induction h with
  | init => exact inv_init merge ws f0
  | step _ st ih => exact inv_step h1 ih st

/-- C32 (one process): whatever the interleaving of any number of writers in one process, whenever none of
them is between truncating and writing the file, the file holds exactly the result of the successful calls
carried out one after the other, in the order of their writes.  In particular a call that fails leaves the
file alone. -/
theorem C32_one_process_partial {merge : P → P → Option P} {ws : Nat → Writer P} {f0 : File P} (h1 : OneProcess ws)
    {s : State P} (h : Reach ws merge f0 s) (hq : ∀ w m, s.pc w ≠ .created m ∧ s.pc w ≠ .truncated m) :
    writeAll merge ws f0 s.log = some s.file := (reach_inv h1 h).free hq

/-- C32 (who has written): a writer is in the log exactly when it has returned `Ok`. -/
theorem C32_log {merge : P → P → Option P} {ws : Nat → Writer P} {f0 : File P} {s : State P}
    (h : Reach ws merge f0 s) (w : Nat) : w ∈ s.log ↔ s.pc w = .done := by
  induction h with
  | init => simp [initial]
  | step _ st ih =>
    have key : ∀ (s : State P) (v : Nat) (c : PC P), (w ∈ s.log ↔ s.pc w = .done) → s.pc v ≠ .done → c ≠ .done →
        (w ∈ s.log ↔ upd s.pc v c w = .done) := by
      intro s v c hs h1 h2
      by_cases e : w = v
      · subst e; rw [upd_same, hs]; simp [h1, h2]
      · rw [upd_ne _ _ e]; exact hs
    have key2 : ∀ (s : State P) (v : Nat), (w ∈ s.log ↔ s.pc w = .done) →
        (w ∈ v :: s.log ↔ upd s.pc v .done w = .done) := by
      intro s v hs
      by_cases e : w = v
      · subst e; simp [upd_same]
      · rw [upd_ne _ _ e, List.mem_cons, hs]; simp [e]
    cases st with
    | lock v h hm => exact key _ v _ ih (by rw [h]; simp) (by simp)
    | read v e m h ho hf hl hm => exact key _ v _ ih (by rw [h]; simp) (by simp)
    | conflict v e h ho hf hm => exact key _ v _ ih (by rw [h]; simp) (by simp)
    | unreadable v h ho hf => exact key _ v _ ih (by rw [h]; simp) (by simp)
    | choose v h ho => exact key _ v _ ih (by rw [h]; simp) (by simp)
    | create v h => exact key _ v _ ih (by rw [h]; simp) (by simp)
    | truncate v m h hl => exact key _ v _ ih (by rw [h]; simp) (by simp)
    | write v m h => exact key2 _ v ih
    | writeNew v m h hl => exact key2 _ v ih
    | lockTimeout v u hl hv h =>
      refine key _ v _ ih ?_ (by simp)
      rcases h with h | ⟨m, h⟩ | ⟨m, h⟩ <;> rw [h] <;> simp

/-- A notion of "interaction `i` is represented in pact `p`" that merging respects. -/
structure Coverage {I : Type} (inter : P → I → Prop) (merge : P → P → Option P) (cov : I → P → Prop) : Prop where
  own : ∀ p i, inter p i → cov i p
  self : ∀ p e m i, merge p e = some m → inter p i → cov i m
  keep : ∀ p e m i, merge p e = some m → cov i e → cov i m

theorem writeAll_covers {I : Type} {inter : P → I → Prop} {merge : P → P → Option P} {cov : I → P → Prop}
    (hc : Coverage inter merge cov) {ws : Nat → Writer P} (ho : ∀ w, (ws w).overwrite = false) (f0 : File P)
    (log : List Nat) : ∀ f, writeAll merge ws f0 log = some f →
    (∀ w ∈ log, ∀ i, inter (ws w).pact i → ∃ p, f = .pact p ∧ cov i p) ∧
    (∀ e i, f0 = .pact e → cov i e → ∃ p, f = .pact p ∧ cov i p) := by
  induction log with
  | nil =>
    intro f hf
    simp only [writeAll, Option.some.injEq] at hf
    subst hf
    exact ⟨by simp, fun e i he hi => ⟨e, he, hi⟩⟩
  | cons w log ih =>
    intro f hf
    simp only [writeAll] at hf
    cases hg : writeAll merge ws f0 log with
    | none => rw [hg] at hf; cases hf
    | some g =>
      rw [hg] at hf
      simp only [Option.bind_some] at hf
      obtain ⟨h1, h2⟩ := ih g hg
      cases g with
      | broken => simp [writeOnce, ho w] at hf
      | absent =>
        simp only [writeOnce, Option.some.injEq] at hf
        subst hf
        constructor
        · intro v hv i hi
          rcases List.mem_cons.1 hv with e | e
          · subst e; exact ⟨_, rfl, hc.own _ _ hi⟩
          · obtain ⟨p, hp, _⟩ := h1 v e i hi; cases hp
        · intro e i he hi
          obtain ⟨p, hp, _⟩ := h2 e i he hi; cases hp
      | pact e =>
        simp only [writeOnce, ho w, Bool.false_eq_true, if_false] at hf
        cases hm : merge (ws w).pact e with
        | none => rw [hm] at hf; cases hf
        | some m =>
          rw [hm] at hf
          simp only [Option.map_some, Option.some.injEq] at hf
          subst hf
          constructor
          · intro v hv i hi
            rcases List.mem_cons.1 hv with e' | e'
            · subst e'; exact ⟨m, rfl, hc.self _ _ _ _ hm hi⟩
            · obtain ⟨p, hp, hcov⟩ := h1 v e' i hi
              cases hp
              exact ⟨m, rfl, hc.keep _ _ _ _ hm hcov⟩
          · intro e0 i he hi
            obtain ⟨p, hp, hcov⟩ := h2 e0 i he hi
            cases hp
            exact ⟨m, rfl, hc.keep _ _ _ _ hm hcov⟩

/-- C32 (nothing recorded is lost, one process): without `overwrite`, every interaction of every call that
returned `Ok`, and every interaction of the original file, is represented in the file, for every interleaving
and every notion of representation that merging respects. -/
theorem C32_nothing_lost_partial {I : Type} {inter : P → I → Prop} {merge : P → P → Option P} {cov : I → P → Prop}
    (hc : Coverage inter merge cov) {ws : Nat → Writer P} (h1 : OneProcess ws)
    (ho : ∀ w, (ws w).overwrite = false) {f0 : File P} {s : State P} (h : Reach ws merge f0 s)
    (hq : ∀ w m, s.pc w ≠ .created m ∧ s.pc w ≠ .truncated m) :
    (∀ w, s.pc w = .done → ∀ i, inter (ws w).pact i → ∃ p, s.file = .pact p ∧ cov i p) ∧
    (∀ e i, f0 = .pact e → cov i e → ∃ p, s.file = .pact p ∧ cov i p) := by
  have hw := writeAll_covers hc ho f0 s.log s.file (C32_one_process_partial h1 h hq)
  exact ⟨fun w hd i hi => hw.1 w ((C32_log h w).2 hd) i hi, hw.2⟩

/-! ### Instances: V3 and V4 pacts -/

open Merge MergeProps

variable {D : Type}

/-- Merging request/response pacts, as used by `write_pact`. -/
def mergeHttp? (p e : Pact D) : Option (Pact D) :=
  match mergeHttp p e with
  | .ok r => some r
  | _ => none

theorem mergeHttp?_some {p e m : Pact D} (h : mergeHttp? p e = some m) : mergeHttp p e = .ok m := by
  unfold mergeHttp? at h
  split at h
  · rename_i r hr; rw [hr]; cases h; rfl
  · cases h

/-- An interaction is represented in a V3 pact: there is one with the same description and, if it has provider
states, with the same state names. -/
def RepresentedV3 (i : Interaction D) (p : Pact D) : Prop :=
  ∃ j ∈ p.interactions, i.description = j.description ∧
    (i.states = [] ∨ i.states.map (·.name) = j.states.map (·.name))

theorem rights_converted {conv : Interaction D → Option (Interaction D)} {p q : Pact D} {is : List (Interaction D)}
    (h : allSome ((mergeJoin cmpV3 p.interactions q.interactions).map (pickV3 conv)) = some is)
    (b : Interaction D) (hb : b ∈ q.interactions) : ∃ i ∈ is, conv b = some i := by
  have he := mergeV3_entries h
  rw [← mergeJoin_rights cmpV3 p.interactions q.interactions] at hb
  obtain ⟨e, hem, her⟩ := List.mem_filterMap.1 hb
  have hp : pickV3 conv e ∈ is.map some := by rw [he]; exact List.mem_map.2 ⟨e, hem, rfl⟩
  obtain ⟨i, hi, hie⟩ := List.mem_map.1 hp
  refine ⟨i, hi, ?_⟩
  cases e with
  | left a => simp [rightOf] at her
  | right x => simp only [rightOf, Option.some.injEq] at her; subst her; exact hie.symm
  | both a x => simp only [rightOf, Option.some.injEq] at her; subst her; exact hie.symm

theorem coverage_http : Coverage (fun (p : Pact D) i => i ∈ p.interactions) mergeHttp? RepresentedV3 where
  own p i hi := ⟨i, hi, rfl, Or.inr rfl⟩
  self p e m i hm hi := by
    have hk := (mergeHttp_ok (mergeHttp?_some hm)).2.2.2.1
    rcases (mergeV3_keeps hk).2 i hi with h | ⟨b, _, ⟨b', hb', hc⟩, h1, h2⟩
    · exact ⟨i, h, rfl, Or.inr rfl⟩
    · have hid := asRR_ident b b' hc
      simp only [ident, List.cons.injEq] at hid
      exact ⟨b', hb', by rw [hid.1, h1], by
        rcases h2 with h2 | h2
        · exact Or.inl h2
        · exact Or.inr (by rw [hid.2]; exact h2)⟩
  keep p e m i hm := by
    rintro ⟨j, hj, h1, h2⟩
    have hk := (mergeHttp_ok (mergeHttp?_some hm)).2.2.2.1
    obtain ⟨j', hj', hc⟩ := rights_converted hk j hj
    have hid := asRR_ident j j' hc
    simp only [ident, List.cons.injEq] at hid
    exact ⟨j', hj', by rw [hid.1, h1], by rw [hid.2]; exact h2⟩

/-- C32 (V3 pacts, one process): after any interleaving of any number of calls without `overwrite`, every
interaction of every successful call and of the original file has a representative in the file. -/
theorem C32_v3_nothing_lost_partial {ws : Nat → Writer (Pact D)} (h1 : OneProcess ws)
    (ho : ∀ w, (ws w).overwrite = false) {f0 : File (Pact D)} {s : State (Pact D)}
    (h : Reach ws mergeHttp? f0 s) (hq : ∀ w m, s.pc w ≠ .created m ∧ s.pc w ≠ .truncated m) :
    (∀ w, s.pc w = .done → ∀ i ∈ (ws w).pact.interactions, ∃ p, s.file = .pact p ∧ RepresentedV3 i p) ∧
    (∀ e, f0 = .pact e → ∀ i ∈ e.interactions, ∃ p, s.file = .pact p ∧ RepresentedV3 i p) := by
  have := C32_nothing_lost_partial coverage_http h1 ho h hq
  exact ⟨this.1, fun e he i hi => this.2 e i he (coverage_http.own e i hi)⟩

/-- V4 pacts whose interactions have no keys. -/
def KeylessV4 (p : Pact D) : Prop := ∀ i ∈ p.interactions, i.key = none ∧ i.asV4 = i

theorem keyless_merge {p e r : Pact D} (h : mergeV4 p e = .ok r) (hp : KeylessV4 p) (he : KeylessV4 e) :
    KeylessV4 r := by
  intro i hi
  obtain ⟨_, hr, _⟩ := mergeV4_ok h
  rw [hr] at hi
  obtain ⟨x, hx, rfl⟩ := List.mem_map.1 hi
  cases x with
  | left a => exact hp a (mergeJoin_mem_left hx rfl)
  | both a b => exact hp a (mergeJoin_mem_left hx rfl)
  | right b =>
    have := mergeJoin_mem_right hx (b := b) rfl
    obtain ⟨y, hy, hyb⟩ := List.mem_map.1 this
    rw [(he y hy).2] at hyb
    subst hyb
    exact he y hy

/-- Merging V4 pacts, as used by `write_pact`. -/
def mergeV4? (p e : {p : Pact D // KeylessV4 p}) : Option {p : Pact D // KeylessV4 p} :=
  match h : mergeV4 p.1 e.1 with
  | .ok r => some ⟨r, keyless_merge h p.2 e.2⟩
  | _ => none

theorem mergeV4?_some {p e m : {p : Pact D // KeylessV4 p}} (h : mergeV4? p e = some m) :
    mergeV4 p.1 e.1 = .ok m.1 := by
  unfold mergeV4? at h
  split at h
  · rename_i r hr; cases h; exact hr
  · cases h

/-- An interaction is represented in a V4 pact: there is one of the same type with the same description. -/
def RepresentedV4 (i : Interaction D) (p : {p : Pact D // KeylessV4 p}) : Prop :=
  ∃ j ∈ p.1.interactions, j.description = i.description ∧ j.typeOf = i.typeOf

theorem coverage_v4 : Coverage (fun (p : {p : Pact D // KeylessV4 p}) i => i ∈ p.1.interactions) mergeV4?
    RepresentedV4 where
  own p i hi := ⟨i, hi, rfl, rfl⟩
  self p e m i hm hi := ⟨i, (C31_v4_keeps _ _ _ (mergeV4?_some hm)).1.subset hi, rfl, rfl⟩
  keep p e m i hm := by
    rintro ⟨j, hj, h1, h2⟩
    have hk := C31_v4_keeps _ _ _ (mergeV4?_some hm)
    have hj4 := (e.2 j hj).2
    rcases hk.2 j hj with h | ⟨a, ha, hs⟩
    · rw [hj4] at h; exact ⟨j, h, h1, h2⟩
    · rw [hj4] at hs
      unfold SameV4 at hs
      rw [(p.2 a ha).1] at hs
      exact ⟨a, hk.1.subset ha, by rw [hs.1, h1], by rw [hs.2.1, h2]⟩

/-- C32 (V4 pacts without keys, one process). -/
theorem C32_v4_nothing_lost_partial {ws : Nat → Writer {p : Pact D // KeylessV4 p}} (h1 : OneProcess ws)
    (ho : ∀ w, (ws w).overwrite = false) {f0 : File {p : Pact D // KeylessV4 p}}
    {s : State {p : Pact D // KeylessV4 p}}
    (h : Reach ws mergeV4? f0 s) (hq : ∀ w m, s.pc w ≠ .created m ∧ s.pc w ≠ .truncated m) :
    (∀ w, s.pc w = .done → ∀ i ∈ (ws w).pact.1.interactions, ∃ p, s.file = .pact p ∧ RepresentedV4 i p) ∧
    (∀ e, f0 = .pact e → ∀ i ∈ e.1.interactions, ∃ p, s.file = .pact p ∧ RepresentedV4 i p) := by
  have := C32_nothing_lost_partial coverage_v4 h1 ho h hq
  exact ⟨this.1, fun e he i hi => this.2 e i he (coverage_v4.own e i hi)⟩

/-! ### Where C32 fails -/

/-- A process crash: everything in progress stops, locks are released by the operating system. -/
def crash (s : State P) : State P :=
  { s with
    mutex := fun _ => none, flock := none
    pc := fun w => match s.pc w with
      | .idle => .idle
      | .done => .done
      | _ => .failed }

/-- Runs from a given state. -/
inductive Run (ws : Nat → Writer P) (merge : P → P → Option P) : State P → State P → Prop
  | refl (s : State P) : Run ws merge s s
  | step {s t u : State P} (h : Run ws merge s t) (st : Step ws merge t u) : Run ws merge s u

/-- C32 (crash): for every merge, a crash after truncation destroys the file: the old contents are gone and
the new ones not written. -/
theorem C32_crash (merge : P → P → Option P) (p e m : P) (hm : merge p e = some m) :
    ∃ s, Reach (fun _ => ⟨p, false, 0⟩) merge (.pact e) s ∧ (crash s).file = .broken := by
  refine ⟨_, .step (.step (.step .init (.lock 0 rfl rfl)) (.read 0 e m rfl rfl rfl rfl hm)) (.truncate 0 m rfl rfl), rfl⟩

/-- C32 (a broken file stays broken): once the file is broken and nobody is in the middle of a call, no later
call without `overwrite` repairs it, and none returns `Ok`. -/
theorem C32_broken_stays (ws : Nat → Writer P) (merge : P → P → Option P) (ho : ∀ w, (ws w).overwrite = false)
    (s t : State P) (hb : s.file = .broken) (hq : ∀ w, s.pc w = .idle ∨ s.pc w = .done ∨ s.pc w = .failed)
    (hr : Run ws merge s t) :
    t.file = .broken ∧ ∀ w, t.pc w = .done → s.pc w = .done := by
  suffices h : t.file = .broken ∧ (∀ w, t.pc w = .idle ∨ t.pc w = .locked ∨ t.pc w = .done ∨ t.pc w = .failed) ∧
      ∀ w, t.pc w = .done → s.pc w = .done from ⟨h.1, h.2.2⟩
  induction hr with
  | refl => exact ⟨hb, fun w => by rcases hq w with h | h | h <;> simp [h], fun w h => h⟩
  | @step t u _ st ih =>
    obtain ⟨i1, i2, i3⟩ := ih
    have upd_case : ∀ (v : Nat) (c : PC P), (c = .locked ∨ c = .failed) → t.pc v ≠ .done →
        (∀ w, upd t.pc v c w = .idle ∨ upd t.pc v c w = .locked ∨ upd t.pc v c w = .done ∨ upd t.pc v c w = .failed) ∧
        ∀ w, upd t.pc v c w = .done → s.pc w = .done := by
      intro v c hc hv
      constructor
      · intro w
        by_cases e : w = v
        · subst e; rw [upd_same]; rcases hc with h | h <;> simp [h]
        · rw [upd_ne _ _ e]; exact i2 w
      · intro w hw
        by_cases e : w = v
        · subst e; rw [upd_same] at hw; rcases hc with h | h <;> rw [h] at hw <;> cases hw
        · rw [upd_ne _ _ e] at hw; exact i3 w hw
    cases st with
    | lock w h hm => exact ⟨i1, upd_case w _ (Or.inl rfl) (by rw [h]; simp)⟩
    | read w e m h ho' hf hl hm => rw [i1] at hf; cases hf
    | conflict w e h ho' hf hm => rw [i1] at hf; cases hf
    | unreadable w h ho' hf => exact ⟨i1, upd_case w _ (Or.inr rfl) (by rw [h]; simp)⟩
    | choose w h ho' =>
      rcases ho' with h' | h'
      · rw [ho w] at h'; cases h'
      · rw [i1] at h'; cases h'
    | create w h => rcases i2 w with e | e | e | e <;> rw [h] at e <;> cases e
    | truncate w m h hl => rcases i2 w with e | e | e | e <;> rw [h] at e <;> cases e
    | write w m h => rcases i2 w with e | e | e | e <;> rw [h] at e <;> cases e
    | writeNew w m h hl => rcases i2 w with e | e | e | e <;> rw [h] at e <;> cases e
    | lockTimeout w v hl hv h =>
      refine ⟨i1, upd_case w _ (Or.inr rfl) ?_⟩
      rcases h with h | ⟨m, h⟩ | ⟨m, h⟩ <;> rw [h] <;> simp

/-- C32 (when a crash is harmless): in one process, the file is a pact or absent except while a writer is
between truncating and writing. -/
theorem C32_window {merge : P → P → Option P} {ws : Nat → Writer P} {f0 : File P} (h1 : OneProcess ws)
    (hf0 : f0 ≠ .broken) {s : State P} (h : Reach ws merge f0 s) (hb : s.file = .broken) :
    ∃ w m, s.pc w = .created m ∨ s.pc w = .truncated m := by
  refine Classical.byContradiction fun hn => ?_
  have hq : ∀ w m, s.pc w ≠ .created m ∧ s.pc w ≠ .truncated m := by
    intro w m
    exact ⟨fun e => hn ⟨w, m, Or.inl e⟩, fun e => hn ⟨w, m, Or.inr e⟩⟩
  have hw := C32_one_process_partial h1 h hq
  have notbroken : ∀ log f, writeAll merge ws f0 log = some f → f ≠ .broken := by
    intro log
    cases log with
    | nil => intro f hf; simp only [writeAll, Option.some.injEq] at hf; rw [← hf]; exact hf0
    | cons w log =>
      intro f hf e
      subst e
      simp only [writeAll] at hf
      cases hg : writeAll merge ws f0 log with
      | none => rw [hg] at hf; cases hf
      | some g =>
        rw [hg] at hf
        simp only [Option.bind_some] at hf
        cases g with
        | absent => simp [writeOnce] at hf
        | broken => simp only [writeOnce] at hf; split at hf <;> simp at hf
        | pact e =>
          simp only [writeOnce] at hf
          split at hf
          · simp at hf
          · cases hm : merge (ws w).pact e <;> rw [hm] at hf <;> simp at hf
  exact notbroken s.log s.file hw hb

/-- Two processes. -/
def twoProcesses (p q : P) : Nat → Writer P := fun w => if w = 0 then ⟨p, false, 0⟩ else ⟨q, false, 1⟩

/-- C32 (lost update across processes): two processes that both read the file before either writes: both
calls return `Ok`, and the file has only what the second one merged into the original. -/
theorem C32_lost_update (merge : P → P → Option P) (p q e m n : P) (hp : merge p e = some m)
    (hq : merge q e = some n) :
    ∃ s, Reach (twoProcesses p q) merge (.pact e) s ∧ s.pc 0 = .done ∧ s.pc 1 = .done ∧ s.file = .pact n := by
  refine ⟨_, .step (.step (.step (.step (.step (.step (.step (.step .init (.lock 0 rfl rfl)) (.lock 1 rfl rfl))
    (.read 0 e m rfl rfl rfl rfl hp)) (.read 1 e n rfl rfl rfl rfl hq)) (.truncate 0 m rfl rfl)) (.write 0 m rfl))
    (.truncate 1 n rfl rfl)) (.write 1 n rfl), rfl, rfl, rfl⟩

/-- C32 (lost first write across processes): two processes that both find no file. -/
theorem C32_lost_create (merge : P → P → Option P) (p q : P) :
    ∃ s, Reach (twoProcesses p q) merge .absent s ∧ s.pc 0 = .done ∧ s.pc 1 = .done ∧ s.file = .pact q := by
  refine ⟨_, .step (.step (.step (.step (.step (.step (.step (.step .init (.lock 0 rfl rfl)) (.lock 1 rfl rfl))
    (.choose 0 rfl (Or.inr rfl))) (.choose 1 rfl (Or.inr rfl))) (.create 0 rfl)) (.writeNew 0 p rfl rfl))
    (.create 1 rfl)) (.writeNew 1 q rfl rfl), rfl, rfl, rfl⟩

/-- Non-vacuity: two writers in one process, one after the other, and the file they leave. -/
example (merge : P → P → Option P) (p q m : P) (h : merge q p = some m) :
    ∃ s, Reach (fun w => if w = 0 then ⟨p, false, 0⟩ else ⟨q, false, 0⟩) merge .absent s ∧ s.pc 0 = .done ∧
      s.pc 1 = .done ∧ s.file = .pact m := by
  refine ⟨_, .step (.step (.step (.step (.step (.step (.step (.step .init (.lock 0 rfl rfl))
    (.choose 0 rfl (Or.inr rfl))) (.create 0 rfl)) (.writeNew 0 p rfl rfl)) (.lock 1 rfl rfl))
    (.read 1 p m rfl rfl rfl rfl h)) (.truncate 1 m rfl rfl)) (.write 1 m rfl), rfl, rfl, rfl⟩

end WritePactProps
end Verif
