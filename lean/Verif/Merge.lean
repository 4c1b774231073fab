import Verif.JsonUtils

/-
  Model of merging pacts: rust/pact_models/src/{iterator_utils,sync_interaction,sync_pact,message_pact,
  plugins}.rs and v4/pact.rs.
-/

set_option autoImplicit false

namespace Verif
namespace Merge
open JsonUtils

/-! ### The Cartesian product iterator -/

/-- `CartesianProductIterator`: its two positions (iterator_utils.rs 2-7). -/
structure Pos where
  i1 : Nat
  i2 : Nat
deriving DecidableEq

/-- `slice.get(i).unwrap()`. -/
def getUnwrap {A : Type} (l : List A) (i : Nat) : Res A :=
  match l[i]? with
  | some a => .ok a
  | none => .panic

/-- `fn next` (iterator_utils.rs 18-34). -/
def next {A B : Type} (v1 : List A) (v2 : List B) (p : Pos) : Res (Option (A × B) × Pos) :=
  if v1.isEmpty || v2.isEmpty || (decide (p.i1 = v1.length) && decide (p.i2 = v2.length)) then .ok (none, p)
  else if p.i2 = v2.length then
    let p : Pos := ⟨p.i1 + 1, 1⟩
    if p.i1 = v1.length then .ok (none, p)
    else (getUnwrap v1 p.i1).bind (fun a => (getUnwrap v2 (p.i2 - 1)).map (fun b => (some (a, b), p)))
  else
    let p : Pos := ⟨p.i1, p.i2 + 1⟩
    (getUnwrap v1 p.i1).bind (fun a => (getUnwrap v2 (p.i2 - 1)).map (fun b => (some (a, b), p)))

/-- `Iterator::collect`: `next` until it returns `None`; `err` when `fuel` elements do not suffice. -/
def collectPairs {A B : Type} (v1 : List A) (v2 : List B) : Nat → Pos → Res (List (A × B))
  | 0, _ => .err
  | fuel + 1, p => match next v1 v2 p with
    | .ok (none, _) => .ok []
    | .ok (some x, p) => (collectPairs v1 v2 fuel p).map (x :: ·)
    | .err => .err
    | .panic => .panic

/-! ### Interactions -/

/-- `ProviderState` (provider_states.rs 17-23): the parameters as a map in key order. -/
structure PState where
  name : Str
  params : List (Str × Json)
deriving DecidableEq

/-- The types of interaction. -/
inductive Kind where
  | http3 | msg3 | http4 | async4 | sync4
deriving DecidableEq

/-- What `conflicts_with` looks at: method, path and query of the request, status of the response. -/
structure HttpCore where
  method : Str
  path : Str
  query : Option (List (Str × List (Option Str)))
  status : Nat
deriving DecidableEq

/-- An interaction: `RequestResponseInteraction`, `Message`, `SynchronousHttp`, `AsynchronousMessage` or
`SynchronousMessage`.  Everything else (headers, bodies, rules, generators, comments) is the abstract
`detail`, which the conversions between V3 and V4 are taken to keep; `key` is `None` for V3. -/
structure Interaction (D : Type) where
  kind : Kind
  key : Option Str
  description : Str
  states : List PState
  core : HttpCore
  detail : D
deriving DecidableEq

variable {D : Type}

/-- `type_of` of the five interaction types (sync_interaction.rs 45-47, message.rs 59-61, v4/*.rs). -/
def Interaction.typeOf (i : Interaction D) : Str :=
  match i.kind with
  | .http3 => "V3 Synchronous/HTTP".toList
  | .msg3 => "V3 Asynchronous/Messages".toList
  | .http4 => "V4 Synchronous/HTTP".toList
  | .async4 => "V4 Asynchronous/Messages".toList
  | .sync4 => "V4 Synchronous/Messages".toList

/-- `as_request_response` (sync_interaction.rs 53-55, v4/synch_http.rs 255-263, others `None`). -/
def Interaction.asRequestResponse (i : Interaction D) : Option (Interaction D) :=
  match i.kind with
  | .http3 => some i
  | .http4 => some { i with kind := .http3, key := none }
  | _ => none

/-- `as_message` (message.rs 75-77, v4/async_message.rs 297-316, others `None`). -/
def Interaction.asMessage (i : Interaction D) : Option (Interaction D) :=
  match i.kind with
  | .msg3 => some i
  | .async4 => some { i with kind := .msg3, key := none }
  | _ => none

/-- `as_v4().unwrap()`: every interaction type has a V4 form (sync_interaction.rs 106-121, message.rs
119-149, v4/*.rs). -/
def Interaction.asV4 (i : Interaction D) : Interaction D :=
  match i.kind with
  | .http3 => { i with kind := .http4, key := none }
  | .msg3 => { i with kind := .async4, key := none }
  | _ => i

/-- Names of the provider states. -/
def Interaction.stateNames (i : Interaction D) : List Str := i.states.map (·.name)

/-- `Ord::cmp` of strings. -/
def cmpStr (a b : Str) : Ordering := if Json.strLt a b then .lt else if a = b then .eq else .gt

/-- `Ord::cmp` of `Vec<String>`. -/
def cmpStrs : List Str → List Str → Ordering
  | [], [] => .eq
  | [], _ :: _ => .lt
  | _ :: _, [] => .gt
  | a :: as, b :: bs => match cmpStr a b with
    | .eq => cmpStrs as bs
    | o => o

/-! ### Conflicts -/

/-- Kinds of conflict. -/
inductive Conflict where
  | method | path | query | status | notHttp
deriving DecidableEq

/-- `RequestResponseInteraction::conflicts_with` (sync_interaction.rs 214-240) with
`Request::differences_from` (request.rs 235-260) and `Response::differences_from` (response.rs 106-121)
after dropping the differences in rules, bodies and headers. -/
def conflictsWith (a b : Interaction D) : List Conflict :=
  match b.asRequestResponse with
  | some b =>
    if a.description = b.description ∧ a.states = b.states then
      (if a.core.method ≠ b.core.method then [.method] else [])
        ++ (if a.core.path ≠ b.core.path then [.path] else [])
        ++ (if a.core.query ≠ b.core.query then [.query] else [])
        ++ (if a.core.status ≠ b.core.status then [.status] else [])
    else []
  | none => [.notHttp]

/-! ### merge_join_by -/

/-- `EitherOrBoth` (itertools). -/
inductive EOB (A B : Type) where
  | left (a : A)
  | right (b : B)
  | both (a : A) (b : B)

/-- Advancing the right iterator while it is smaller than `a` (itertools `MergeJoinBy::next`). -/
def mergeInner {A B : Type} (cmp : A → B → Ordering) (a : A) (rest : List B → List (EOB A B))
    (lefts : List (EOB A B)) : List B → List (EOB A B)
  | [] => .left a :: lefts
  | b :: bs => match cmp a b with
    | .lt => .left a :: rest (b :: bs)
    | .eq => .both a b :: rest bs
    | .gt => .right b :: mergeInner cmp a rest lefts bs

/-- `merge_join_by` (itertools): compare the two heads; the smaller one goes first, equal ones together. -/
def mergeJoin {A B : Type} (cmp : A → B → Ordering) : List A → List B → List (EOB A B)
  | [] => fun bs => bs.map .right
  | a :: as => mergeInner cmp a (mergeJoin cmp as) (as.map .left)

/-! ### Pacts -/

/-- `PluginData` (plugins.rs 12-21). -/
structure PluginData where
  name : Str
  version : Str
  configuration : List (Str × Json)

/-- A pact: `RequestResponsePact`, `MessagePact` or `V4Pact`; the metadata are those of `self` and not
modelled. -/
structure Pact (D : Type) where
  consumer : Str
  provider : Str
  interactions : List (Interaction D)
  plugins : List PluginData

/-- Result of a merge: a pact, or one of the errors. -/
inductive Merged (D : Type) where
  | ok (p : Pact D)
  | differentParties
  | conflicts (n : Nat)
  | wrongType

/-- The comparison in `RequestResponsePact::merge` and `MessagePact::merge` (sync_pact.rs 303-311,
message_pact.rs 309-317). -/
def cmpV3 (a b : Interaction D) : Ordering :=
  match cmpStr a.description b.description with
  | .eq => if a.states.isEmpty then .eq else cmpStrs a.stateNames b.stateNames
  | o => o

/-- All `Some`, or `None`: the errors are collected and reported together (sync_pact.rs 321-337). -/
def allSome {A : Type} : List (Option A) → Option (List A)
  | [] => some []
  | none :: _ => none
  | some a :: l => (allSome l).map (a :: ·)

/-- Converting an entry of the join with `as_request_response` or `as_message`; of two equal ones the
second (from the other pact) is taken (sync_pact.rs 312-318, message_pact.rs 318-324). -/
def pickV3 (conv : Interaction D → Option (Interaction D)) : EOB (Interaction D) (Interaction D) → Option (Interaction D)
  | .left i => some i
  | .right i => conv i
  | .both _ i => conv i

/-- `RequestResponsePact::merge` (sync_pact.rs 284-342). -/
def mergeHttp (self other : Pact D) : Merged D :=
  if self.consumer = other.consumer ∧ self.provider = other.provider then
    match collectPairs self.interactions other.interactions
        (self.interactions.length * other.interactions.length + 1) ⟨0, 0⟩ with
    | .ok pairs =>
      let conflicts := (pairs.map (fun p => conflictsWith p.1 p.2)).filter (fun c => !c.isEmpty)
      if conflicts.length > 0 then .conflicts conflicts.length
      else match allSome ((mergeJoin cmpV3 self.interactions other.interactions).map
          (pickV3 Interaction.asRequestResponse)) with
        | some is => .ok { self with interactions := is }
        | none => .wrongType
    | _ => .wrongType
  else .differentParties

/-- `MessagePact::merge` (message_pact.rs 306-346). -/
def mergeMessages (self other : Pact D) : Merged D :=
  if self.consumer = other.consumer ∧ self.provider = other.provider then
    match allSome ((mergeJoin cmpV3 self.interactions other.interactions).map (pickV3 Interaction.asMessage)) with
    | some is => .ok { self with interactions := is }
    | none => .wrongType
  else .differentParties

/-- The comparison in `V4Pact::merge` (v4/pact.rs 364-389). -/
def cmpV4 (a b : Interaction D) : Ordering :=
  match a.key, b.key with
  | some ka, some kb => cmpStr ka kb
  | _, _ => match cmpStr a.description b.description with
    | .eq => if !a.states.isEmpty then
        match cmpStrs a.stateNames b.stateNames with
        | .eq => cmpStr a.typeOf b.typeOf
        | o => o
      else cmpStr a.typeOf b.typeOf
    | o => o

/-- Of two equal interactions the first (from `self`) is taken (v4/pact.rs 390-396). -/
def pickV4 : EOB (Interaction D) (Interaction D) → Interaction D
  | .left i => i
  | .right i => i
  | .both i _ => i

/-- `PluginData::merge` (plugins.rs 25-34). -/
def mergeConfig (c d : List (Str × Json)) : List (Str × Json) := mergeEntries c d

/-- `V4Pact::add_plugin_data` (v4/pact.rs 98-105). -/
def addPluginData : List PluginData → PluginData → List PluginData
  | [], p => [p]
  | q :: qs, p => if q.name = p.name ∧ q.version = p.version then
      { q with configuration := mergeConfig q.configuration p.configuration } :: qs
    else q :: addPluginData qs p

/-- `V4Pact::merge` (v4/pact.rs 358-412).  A V3 pact has no plugin data. -/
def mergeV4 (self other : Pact D) : Merged D :=
  if self.consumer = other.consumer ∧ self.provider = other.provider then
    .ok { self with
      interactions := (mergeJoin cmpV4 self.interactions (other.interactions.map Interaction.asV4)).map pickV4
      plugins := other.plugins.foldl addPluginData self.plugins }
  else .differentParties

end Merge
end Verif
