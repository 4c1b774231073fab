import Verif.JsonUtils

/-
  Model of the handles of the C interface, rust/pact_ffi/src/mock_server/handles.rs: the global table of pacts
  (176-178), the handles (180-194, 206-419), and the functions that create interactions (455-540, 2792-2816,
  3164-3178), change them (542-576, 2818-2844) and free pacts (3189-3207).

  Every function takes the lock of the table for its whole effect, so a concurrent execution is a sequence of
  calls.  Ghost data (marked so) identifies what was created by which call; it never influences a result.
-/

set_option autoImplicit false

namespace Verif
namespace Handles

/-- The V4 interaction types a handle can refer to. -/
inductive Kind where
  | http | asyncMessage | syncMessage
deriving Repr, DecidableEq

/-- `is_message()` of the V4 interactions. -/
def Kind.isMessage : Kind → Bool
  | .http => false
  | _ => true

/-- An interaction.  Simplified: of its contents only the description and the provider state names are kept.
`uid` is ghost: the number of the call that created it. -/
structure Ixn where
  uid : Nat
  kind : Kind
  desc : Str
  states : List Str
deriving Repr, DecidableEq

/-- `struct PactHandleInner` (handles.rs 170-174), without the parts of the pact that handles do not select. -/
structure PactInner where
  interactions : List Ixn
  started : Bool
deriving Repr, DecidableEq

/-- The global table `PACT_HANDLES` (handles.rs 176-178).  `clock` is ghost: the number of calls made. -/
structure State where
  pacts : Nat → Option PactInner
  clock : Nat

/-- Replacing one entry of the table. -/
def setPact (s : State) (p : Nat) (i : Option PactInner) : State :=
  { pacts := fun q => if q = p then i else s.pacts q
    clock := s.clock + 1 }

/-- A call that does not change the table. -/
def tick (s : State) : State := { s with clock := s.clock + 1 }

/-- `InteractionHandle::new` and `MessageHandle::new` (handles.rs 258-265, 370-377); both arguments are `u16`. -/
def newHandle (p i : Nat) : Nat := p * 65536 + i

/-- `MessageHandle::new_v4` (handles.rs 380-387): the message number is a `usize` converted to `u32`, and the
addition is checked in a debug build and wraps otherwise. -/
def newHandleV4 (checked : Bool) (p i : Nat) : Res Nat :=
  let n := p * 65536 + i % 4294967296
  if n < 4294967296 then .ok n
  else if checked then .panic else .ok (n % 4294967296)

/-- `(self.interaction_ref >> 16) as u16`. -/
def pactRef (h : Nat) : Nat := h / 65536
/-- `(self.interaction_ref & 0x0000FFFF) as u16`, `self.interaction_ref as u16`. -/
def ixnRef (h : Nat) : Nat := h % 65536

/-- `interaction - 1` on `u16`: checked in a debug build, wrapping otherwise. -/
def pred16 (checked : Bool) (i : Nat) : Res Nat :=
  if i = 0 then (if checked then .panic else .ok 65535) else .ok (i - 1)

/-- `InteractionHandle::with_interaction` (handles.rs 283-306): `f` gives the changed interaction and the result,
from the flag and the interaction. -/
def withInteraction {A : Type} (checked : Bool) (s : State) (h : Nat) (f : Bool → Ixn → Ixn × A) :
    Res (State × Option A) :=
  match s.pacts (pactRef h) with
  | none => .ok (tick s, none)
  | some inner => (pred16 checked (ixnRef h)).map fun k =>
    match inner.interactions[k]? with
    | some i => (setPact s (pactRef h) (some { inner with interactions := inner.interactions.set k (f inner.started i).1 }),
        some (f inner.started i).2)
    | none => (tick s, none)

/-- `MessageHandle::with_message` (handles.rs 401-418). -/
def withMessage {A : Type} (checked : Bool) (s : State) (h : Nat) (f : Ixn → Ixn × A) : Res (State × Option A) :=
  match s.pacts (pactRef h) with
  | none => .ok (tick s, none)
  | some inner => (pred16 checked (ixnRef h)).map fun k =>
    match inner.interactions[k]? with
    | some i =>
      if i.kind.isMessage then
        (setPact s (pactRef h) (some { inner with interactions := inner.interactions.set k (f i).1 }), some (f i).2)
      else (tick s, none)
    | none => (tick s, none)

/-- `find_interaction_with_description` (handles.rs 449-453). -/
def findDesc (d : Str) : List Ixn → Option Nat
  | [] => none
  | i :: is => if i.desc = d then some 0 else (findDesc d is).map (· + 1)

/-- The calls of the interface.  A description is `none` for a null pointer or a string that is not UTF-8
(`convert_cstr`); only the calls that then return a handle are modelled with such descriptions. -/
inductive Call where
  /-- `pactffi_new_pact`, `pactffi_new_message_pact`; `id` is the random number that was drawn. -/
  | newPact (id : Nat)
  /-- `pactffi_new_interaction`, `pactffi_new_message_interaction`, `pactffi_new_sync_message_interaction`. -/
  | newInteraction (k : Kind) (p : Nat) (d : Option Str)
  /-- `pactffi_new_message`. -/
  | newMessage (p : Nat) (d : Str)
  /-- `pactffi_new_async_message`. -/
  | newAsyncMessage (p : Nat) (d : Str)
  /-- `pactffi_upon_receiving`. -/
  | uponReceiving (h : Nat) (d : Str)
  /-- `pactffi_given`. -/
  | given (h : Nat) (st : Str)
  /-- `pactffi_message_expects_to_receive`. -/
  | expectsToReceive (h : Nat) (d : Str)
  /-- `pactffi_message_given`. -/
  | messageGiven (h : Nat) (st : Str)
  /-- `pactffi_create_mock_server_for_pact` (mod.rs 205-260), when the server starts. -/
  | startServer (p : Nat)
  /-- `pactffi_free_pact_handle`, `pactffi_free_message_pact_handle`. -/
  | freePact (p : Nat)
deriving Repr, DecidableEq

/-- What a call returns. -/
inductive Ret where
  | pact (p : Nat)
  | handle (h : Nat)
  | flag (b : Bool)
  | unit
  | code (n : Nat)
deriving Repr, DecidableEq

/-- A new, empty interaction. -/
def fresh (s : State) (k : Kind) (d : Str) : Ixn := ⟨s.clock, k, d, []⟩

/-- One call: its result and the new table, or a panic.  A new pact draws random numbers until one is not in use
(handles.rs 219-223): the model takes the number drawn, which must not be in use (`none` otherwise). -/
def call (checked : Bool) (s : State) : Call → Option (Res (State × Ret))
  | .newPact id =>                                            -- handles.rs 208-237, 327-355
    if id < 65536 ∧ s.pacts id = none then
      some (.ok (setPact s id (some ⟨[], false⟩), .pact id))
    else none
  | .newInteraction k p d => some <|                          -- handles.rs 463-482, 492-511, 521-540
    match s.pacts p, d with
    | none, _ => .ok (tick s, .handle (newHandle p 0))
    | some _, none => .ok (tick s, .handle (newHandle p 0))
    | some inner, some d =>
      match findDesc d inner.interactions with
      | some index =>
        .ok (setPact s p (some { inner with interactions := inner.interactions.set index (fresh s k d) }),
          .handle (newHandle p ((index + 1) % 65536)))
      | none =>
        .ok (setPact s p (some { inner with interactions := inner.interactions ++ [fresh s k d] }),
          .handle (newHandle p ((inner.interactions.length + 1) % 65536)))
  | .newMessage p d => some <|                                -- handles.rs 2802-2816
    match s.pacts p with
    | none => .ok (tick s, .handle (newHandle p 0))
    | some inner =>
      .ok (setPact s p (some { inner with interactions := inner.interactions ++ [fresh s .asyncMessage d] }),
        .handle (newHandle p ((inner.interactions.length + 1) % 65536)))
  | .newAsyncMessage p d => some <|                           -- handles.rs 3164-3178
    match s.pacts p with
    | none => (newHandleV4 checked p 0).map fun h => (tick s, .handle h)
    | some inner =>
      (newHandleV4 checked p (inner.interactions.length + 1)).map fun h =>
        (setPact s p (some { inner with interactions := inner.interactions ++ [fresh s .asyncMessage d] }), .handle h)
  | .uponReceiving h d => some <|                             -- handles.rs 547-556
    (withInteraction checked s h fun started i => ({ i with desc := d }, !started)).map fun (s, r) =>
      (s, .flag (r.getD false))
  | .given h st => some <|                                    -- handles.rs 563-572
    (withInteraction checked s h fun started i => ({ i with states := i.states ++ [st] }, !started)).map fun (s, r) =>
      (s, .flag (r.getD false))
  | .expectsToReceive h d => some <|                          -- handles.rs 2822-2828
    (withMessage checked s h fun i => ({ i with desc := d }, ())).map fun (s, _) => (s, .unit)
  | .messageGiven h st => some <|                             -- handles.rs 2834-2840
    (withMessage checked s h fun i => ({ i with states := i.states ++ [st] }, ())).map fun (s, _) => (s, .unit)
  | .startServer p => some <|                                 -- pact_ffi/src/mock_server/mod.rs 205-260
    match s.pacts p with
    | none => .ok (tick s, .unit)
    | some inner => .ok (setPact s p (some { inner with started := true }), .unit)
  | .freePact p => some <|                                    -- handles.rs 3189-3193, 3204-3207
    match s.pacts p with
    | none => .ok (tick s, .code 1)
    | some _ => .ok (setPact s p none, .code 0)

/-- The empty table. -/
def init : State := ⟨fun _ => none, 0⟩

/-- A history: the calls made from one table to another, with what they returned; no call panicked. -/
inductive Run (checked : Bool) : State → List (Call × Ret) → State → Prop where
  | nil (s : State) : Run checked s [] s
  | cons {s t u : State} {c : Call} {r : Ret} {l : List (Call × Ret)} :
      call checked s c = some (.ok (t, r)) → Run checked t l u → Run checked s ((c, r) :: l) u

end Handles
end Verif
