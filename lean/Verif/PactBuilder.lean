import Verif.Builders
import Verif.MessageBuilders
import Verif.PactFileV3
import Verif.ApplyGen

/-
  Model of rust/pact_consumer/src/builders/pact_builder.rs (the same code as pact_builder_async.rs) and message_iter.rs,
  with `add_interaction` and `add_md_version` of the three types of pact (pact_models sync_pact.rs 117-125, 148-156,
  message_pact.rs 124-132, 155-163, v4/pact.rs 287-295, 323-333).  Plugins, the mock server and metrics are not modelled.
-/

set_option autoImplicit false

namespace Verif
namespace PactBuild
open RuleJson Rules Query Headers PactFile PactV3
open Provider (Libs)

/-! ### Interactions of any type -/

/-- `dyn Interaction`: the types of interaction. -/
inductive AnyInteraction where
  | http (i : HttpInteraction)
  | message (m : Message)
  | v4 (i : Interaction)

/-- `as_request_response` (sync_interaction.rs 52-54, message.rs 67-69, and the V4 types). -/
def asRequestResponse : AnyInteraction → Option HttpInteraction
  | .http i => some i
  | .message _ => none
  | .v4 i => asHttp i

/-- `as_message` (sync_interaction.rs 60-62, message.rs 75-77, and the V4 types). -/
def asAnyMessage (uc : UC) : AnyInteraction → Option Message
  | .http _ => none
  | .message m => some m
  | .v4 i => asMessage uc i

/-- `as_v4` (sync_interaction.rs 104-106, message.rs 119-121, and the V4 types). -/
def asV4 (uc : UC) : AnyInteraction → Option Interaction
  | .http i => some (httpAsV4 i)
  | .message m => some (messageAsV4 uc m)
  | .v4 i => some i

/-- `Pact::add_interaction` (sync_pact.rs 117-125, message_pact.rs 124-132, v4/pact.rs 287-295). -/
def addInteraction (uc : UC) (i : AnyInteraction) : AnyPact → Res AnyPact
  | .http p =>
    match asRequestResponse i with
    | none => .err
    | some i => .ok (.http { p with interactions := p.interactions ++ [i] })
  | .message p =>
    match asAnyMessage uc i with
    | none => .err
    | some m => .ok (.message { p with messages := p.messages ++ [m] })
  | .v4 p =>
    match asV4 uc i with
    | none => .err
    | some i => .ok (.v4 { p with interactions := p.interactions ++ [i] })

/-! ### The builder -/

/-- The constructors `new`, `new_v3_message` and `new_v4`. -/
inductive PactKind where
  | http | message | v4
deriving DecidableEq

/-- The versions of the libraries: `PACT_RUST_VERSION` and `PACT_CONSUMER_VERSION`. -/
structure Versions where
  models : Option Str
  consumer : Option Str

/-- `add_md_version` on the metadata of V3 (sync_pact.rs 148-156, message_pact.rs 155-163). -/
def addVersion (key : Str) (version : Option Str) (m : Metadata) : Metadata :=
  match version with
  | none => m
  | some v =>
    match Json.lookup "pactRust".toList m with
    | some md => OMap.insert "pactRust".toList (OMap.insert key v md) m
    | none => OMap.insert "pactRust".toList [(key, v)] m

/-- `default_metadata` (sync_pact.rs 239-244). -/
def httpMetadata (V : Versions) : Metadata :=
  [("pactRust".toList, [("models".toList, V.models.getD "unknown".toList)]),
   ("pactSpecification".toList, [("version".toList, Spec.v3.text)])]

/-- `default_metadata` (message_pact.rs 283-293). -/
def messageMetadata (V : Versions) : Metadata :=
  [("pact-rust".toList, [("version".toList, V.models.getD "unknown".toList)]),
   ("pact-specification".toList, [("version".toList, Spec.v3.text)])]

/-- `new` (pact_builder.rs 67-88), `new_v3_message` (93-114) and `new_v4` (118-137). -/
def new (V : Versions) (k : PactKind) (consumer provider : Str) : AnyPact :=
  match k with
  | .http => .http ⟨consumer, provider, [], addVersion "consumer".toList V.consumer (httpMetadata V), .v3⟩
  | .message => .message ⟨consumer, provider, [], addVersion "consumer".toList V.consumer (messageMetadata V), .v3⟩
  | .v4 => .v4 ⟨consumer, provider, [], match V.consumer with
      | none => []
      | some v => [("pactRust".toList, .obj [("consumer".toList, .str v)])], []⟩

/-- A call on the builder.  The closures are the calls they make on the builder of the interaction. -/
inductive PactCall where
  | interaction (description : Str) (cs : List Builders.Call)
  | message (description : Str) (cs : List MessageBuilders.AsyncCall)
  | sync (description : Str) (cs : List MessageBuilders.SyncCall)
  | push (i : AnyInteraction)

/-- `InteractionBuilder::build` (interaction_builder.rs 124-132). -/
def buildV3 (uc : UC) (parseCT : Str → Option ContentType) (description : Str) (cs : List Builders.Call) : HttpInteraction :=
  let b := cs.foldl (fun b c => Builders.step uc parseCT c b) (Builders.builder0 description)
  ⟨none, b.info.description, b.info.states, b.request, b.response⟩

/-- `push_interaction` (pact_builder.rs 195-199): an error becomes a panic. -/
def push (uc : UC) (i : AnyInteraction) (p : AnyPact) : Res AnyPact :=
  match addInteraction uc i p with
  | .ok p => .ok p
  | _ => .panic

/-- `Pact::is_v4`. -/
def isV4 : AnyPact → Bool
  | .v4 _ => true
  | _ => false

/-- One call: `interaction` (pact_builder.rs 178-191), `message_interaction` (215-230), `synchronous_message_interaction`
(234-249), `push_interaction`. -/
def step (uc : UC) (parseCT : Str → Option ContentType) (c : PactCall) (p : AnyPact) : Res AnyPact :=
  match c with
  | .interaction d cs =>
    if isV4 p then push uc (.v4 (Builders.build uc parseCT d cs)) p else push uc (.http (buildV3 uc parseCT d cs)) p
  | .message d cs => (MessageBuilders.buildAsync parseCT d cs).bind fun i => push uc (.v4 i) p
  | .sync d cs => (MessageBuilders.buildSync parseCT d cs).bind fun i => push uc (.v4 i) p
  | .push i => push uc i p

/-- The calls, one after the other. -/
def run (uc : UC) (parseCT : Str → Option ContentType) : List PactCall → AnyPact → Res AnyPact
  | [], p => .ok p
  | c :: cs, p => (step uc parseCT c p).bind fun p => run uc parseCT cs p

/-- A constructor, the calls, and `build` (pact_builder.rs 202-205). -/
def build (uc : UC) (parseCT : Str → Option ContentType) (V : Versions) (k : PactKind) (consumer provider : Str)
    (cs : List PactCall) : Res AnyPact :=
  run uc parseCT cs (new V k consumer provider)

/-! ### The messages -/

/-- `as_v4_pact` (sync_pact.rs 86-99, message_pact.rs 93-106, v4/pact.rs 267-269). -/
def asV4Pact (uc : UC) : AnyPact → V4Pact
  | .http p => httpPactAsV4 p
  | .message p => messagePactAsV4 uc p
  | .v4 p => p

/-- `as_message_pact` (sync_pact.rs 82-84, message_pact.rs 89-91, v4/pact.rs 245-265). -/
def asMessagePact (uc : UC) : AnyPact → Option MessagePact
  | .http _ => none
  | .message p => some p
  | .v4 p => some (v4AsMessages uc p)

/-- An iterator: the pact it will write and the messages that are left (message_iter.rs 23-28). -/
structure Iter (M : Type) where
  pact : AnyPact
  messages : List M

/-- `next` (message_iter.rs 142-144). -/
def Iter.next {M : Type} (it : Iter M) : Option M × Iter M :=
  match it.messages with
  | [] => (none, it)
  | m :: ms => (some m, { it with messages := ms })

/-- `filter_interactions` (v4/pact.rs 91-96) and `as_v4_async_message`. -/
def asyncMessages (is : List Interaction) : List (Common × MessageContents) :=
  is.filterMap fun | .async c m => some (c, m) | _ => none

/-- `filter_interactions` (v4/pact.rs 91-96) and `as_v4_sync_message`. -/
def syncMessages (is : List Interaction) : List (Common × MessageContents × List MessageContents) :=
  is.filterMap fun | .sync c m ms => some (c, m, ms) | _ => none

/-- `messages` (pact_builder.rs 252-260) and `asynchronous_messages_iter` (message_iter.rs 31-40). -/
def messages (uc : UC) (p : AnyPact) : Iter (Common × MessageContents) :=
  ⟨.v4 (asV4Pact uc p), asyncMessages (asV4Pact uc p).interactions⟩

/-- The loop over the messages (message_iter.rs 53-60, 110-113); `i` numbers them for their draws. -/
def generateEach {A : Type} (f : Nat → A → Res A) : Nat → List A → Res (List A)
  | _, [] => .ok []
  | i, a :: as => (f i a).bind fun a => (generateEach f (i + 1) as).map (a :: ·)

/-- What `rx.recv()` gives (message_iter.rs 90, 134): the messages the task sends, or nothing if the task ended without
sending.  It ends that way if a generator panics, or if it is dropped: outside a Tokio runtime a runtime is started for the
task and dropped before `recv` (message_iter.rs 66-86, 116-130), which drops the task at any point where it waits, even
before it starts.  `finishes` says whether the task got to its end; inside a runtime it does. -/
def received {A : Type} (finishes : Bool) (ms : Res (List A)) : Option (List A) :=
  match ms with
  | .ok ms => if finishes then some ms else none
  | _ => none

/-- `v3_messages` (pact_builder.rs 263-271) and `messages_iter` (message_iter.rs 105-137): a pact that can not be a message
pact and a task that does not send are panics. -/
def v3Messages (uc : UC) (B : Libs) (G : ApplyGen.GLib) (D : ApplyGen.Draws) (finishes : Bool) (p : AnyPact) :
    Res (Iter Message) :=
  match asMessagePact uc p with
  | none => .panic
  | some p =>
    match received finishes (generateEach (fun i m =>
        ApplyGen.generateMessage B G (D.at_ ["message".toList, natStr i]) .consumer [] m) 0 p.messages) with
    | some ms => .ok ⟨.message p, ms⟩
    | none => .panic

/-- The generators of one synchronous message (message_iter.rs 54-59, 76-81). -/
def generateSync (B : Libs) (G : ApplyGen.GLib) (D : ApplyGen.Draws) (i : Nat)
    (m : Common × MessageContents × List MessageContents) : Res (Common × MessageContents × List MessageContents) :=
  (ApplyGen.generateSync B G (D.at_ ["message".toList, natStr i]) .consumer [] m.2.1 m.2.2).map fun r => (m.1, r.1, r.2)

/-- `synchronous_messages` (pact_builder.rs 274-282) and `synchronous_messages_iter` (message_iter.rs 43-101): if the task does
not send, the messages as they are defined. -/
def synchronousMessages (uc : UC) (B : Libs) (G : ApplyGen.GLib) (D : ApplyGen.Draws) (finishes : Bool) (p : AnyPact) :
    Iter (Common × MessageContents × List MessageContents) :=
  let p := asV4Pact uc p
  ⟨.v4 p, (received finishes (generateEach (generateSync B G D) 0 (syncMessages p.interactions))).getD
    (syncMessages p.interactions)⟩

/-- `default_file_name` (sync_pact.rs 344-346, message_pact.rs 348-350, v4/pact.rs). -/
def fileName (consumer provider : Str) : Str := consumer ++ ['-'] ++ provider ++ ".json".toList

/-- `to_json` at the `specification_version` of the pact, which `drop` writes (message_iter.rs 148-173). -/
def written (E : FileEnv) : AnyPact → Res Json
  | .http p => httpPactToJson E p.spec p
  | .message p => messagePactToJson E p.spec p
  | .v4 p => v4PactToJson E .v4 p

end PactBuild
end Verif
