import Verif.Merge

/-
  Model of writing a pact file: rust/pact_models/src/pact.rs 218-254 (`write_pact`) and file_utils.rs, as a
  transition system over any number of writers in any number of processes.
-/

set_option autoImplicit false

namespace Verif
namespace WritePact

variable {P : Type}

/-- Contents of the pact file. -/
inductive File (P : Type) where
  | absent
  /-- empty or partly written: not a pact -/
  | broken
  | pact (p : P)

/-- A call of `write_pact`: its pact, the flag `overwrite`, and the process it runs in. -/
structure Writer (P : Type) where
  pact : P
  overwrite : Bool
  process : Nat

/-- Where a writer is. -/
inductive PC (P : Type) where
  /-- before `WRITE_LOCK.lock()` (pact.rs 225) -/
  | idle
  /-- holding `WRITE_LOCK` -/
  | locked
  /-- the file was read and merged; the result is to be written (pact.rs 236-239) -/
  | merged (m : P)
  /-- decided to write a new file (pact.rs 226, 245-247) -/
  | fresh
  /-- the file was created or truncated by `File::create`, outside any file lock (pact.rs 248) -/
  | created (m : P)
  /-- exclusive file lock held and file truncated by `set_len(0)` (pact.rs 239-240) -/
  | truncated (m : P)
  /-- returned `Ok` -/
  | done
  /-- returned `Err` -/
  | failed

/-- State of the system: the file, who holds `WRITE_LOCK` in each process, who holds the exclusive lock on the
file, and where the writers are. `log` is a ghost: the writers that have written, latest first. -/
structure State (P : Type) where
  file : File P
  mutex : Nat → Option Nat
  flock : Option Nat
  pc : Nat → PC P
  log : List Nat

/-- Function update. -/
def upd {A : Type} (f : Nat → A) (n : Nat) (a : A) : Nat → A := fun m => if m = n then a else f m

/-- The steps of `write_pact` by writer `w` (pact.rs 218-254).  `merge self existing` is `Pact::merge`
followed by writing to JSON and reading it back; `none` is an error.  A step that only returns an error
changes nothing but the mutex.  Retrying for a file lock (file_utils.rs 15-92) is a step that may be taken
when the lock is free, or fail when it is not.  A crash of a process is the absence of further steps. -/
inductive Step (ws : Nat → Writer P) (merge : P → P → Option P) : State P → State P → Prop
  /-- `WRITE_LOCK.lock().unwrap()` (225) -/
  | lock {s : State P} (w : Nat) (h : s.pc w = .idle) (hm : s.mutex (ws w).process = none) :
      Step ws merge s { s with mutex := upd s.mutex (ws w).process (some w), pc := upd s.pc w .locked }
  /-- `path.exists()`, open, read under a shared lock, merge (226-237) -/
  | read {s : State P} (w : Nat) (e m : P) (h : s.pc w = .locked) (ho : (ws w).overwrite = false)
      (hf : s.file = .pact e) (hl : s.flock = none) (hm : merge (ws w).pact e = some m) :
      Step ws merge s { s with pc := upd s.pc w (.merged m) }
  /-- conflict, or an error while merging (236) -/
  | conflict {s : State P} (w : Nat) (e : P) (h : s.pc w = .locked) (ho : (ws w).overwrite = false)
      (hf : s.file = .pact e) (hm : merge (ws w).pact e = none) :
      Step ws merge s { s with mutex := upd s.mutex (ws w).process none, pc := upd s.pc w .failed }
  /-- the file exists but can not be parsed (229) -/
  | unreadable {s : State P} (w : Nat) (h : s.pc w = .locked) (ho : (ws w).overwrite = false)
      (hf : s.file = .broken) :
      Step ws merge s { s with mutex := upd s.mutex (ws w).process none, pc := upd s.pc w .failed }
  /-- `overwrite`, or `path.exists()` is false (226) -/
  | choose {s : State P} (w : Nat) (h : s.pc w = .locked)
      (ho : (ws w).overwrite = true ∨ s.file = .absent) :
      Step ws merge s { s with pc := upd s.pc w .fresh }
  /-- `File::create` (248) -/
  | create {s : State P} (w : Nat) (h : s.pc w = .fresh) :
      Step ws merge s { s with file := .broken, pc := upd s.pc w (.created (ws w).pact) }
  /-- exclusive lock and `set_len(0)` (239-240, file_utils.rs 71-73) -/
  | truncate {s : State P} (w : Nat) (m : P) (h : s.pc w = .merged m) (hl : s.flock = none) :
      Step ws merge s { s with file := .broken, flock := some w, pc := upd s.pc w (.truncated m) }
  /-- `write_all` and release of both locks (242-244) -/
  | write {s : State P} (w : Nat) (m : P) (h : s.pc w = .truncated m) :
      Step ws merge s { s with
        file := .pact m, flock := none, mutex := upd s.mutex (ws w).process none
        pc := upd s.pc w .done, log := w :: s.log }
  /-- exclusive lock, `write_all` and release after `File::create` (249-252) -/
  | writeNew {s : State P} (w : Nat) (m : P) (h : s.pc w = .created m) (hl : s.flock = none) :
      Step ws merge s { s with
        file := .pact m, mutex := upd s.mutex (ws w).process none
        pc := upd s.pc w .done, log := w :: s.log }
  /-- the file lock could not be had in three attempts (file_utils.rs 86-91) -/
  | lockTimeout {s : State P} (w v : Nat) (hl : s.flock = some v) (hv : v ≠ w)
      (h : s.pc w = .locked ∨ (∃ m, s.pc w = .merged m) ∨ ∃ m, s.pc w = .created m) :
      Step ws merge s { s with mutex := upd s.mutex (ws w).process none, pc := upd s.pc w .failed }

/-- The initial state, with a file that is absent or a pact. -/
def initial (f : File P) : State P :=
  { file := f, mutex := fun _ => none, flock := none, pc := fun _ => .idle, log := [] }

/-- Reachable states. -/
inductive Reach (ws : Nat → Writer P) (merge : P → P → Option P) (f : File P) : State P → Prop
  | init : Reach ws merge f (initial f)
  | step {s t : State P} (h : Reach ws merge f s) (st : Step ws merge s t) : Reach ws merge f t

end WritePact
end Verif
