import Verif.Maps

/-
  Model of rust/pact_verifier/src/lib.rs: filters (787-881), provider state changes (389-405, 633-686), the
  verification of an interaction (410-486), of a pact (1399-1543) and of a provider (979-1162), the notices (943-954)
  and the result sent to the broker (1615-1628); and of the filter options of the C interface,
  rust/pact_ffi/src/verifier/handle.rs 116-137.

  The provider and the state change executor are the environment: they have a state of any type and may answer
  anything (see `World`).  Output lines other than notices, durations, plugins, metrics and fetching pacts are left
  out.
-/

set_option autoImplicit false

namespace Verif
namespace Verifier

/-- `struct ProviderState` (pact_models/src/provider_states.rs 17-22). -/
structure PState where
  name : Str
  params : List (Str × Json)
deriving DecidableEq

/-- `dyn Interaction`, as far as the verifier looks at it. -/
structure Ixn where
  id : Option Str
  desc : Str
  states : List PState
  pending : Bool
deriving DecidableEq

/-! ### Filters -/

/-- `enum FilterInfo` (lib.rs 787-796). -/
inductive FilterInfo where
  | none
  | description (d : Str)
  | state (s : Str)
  | descriptionAndState (d s : Str)
deriving DecidableEq

namespace FilterInfo
/-- lib.rs 801-807 -/
def hasDescription : FilterInfo → Bool
  | description _ => true
  | descriptionAndState _ _ => true
  | _ => false
/-- lib.rs 810-816 -/
def hasState : FilterInfo → Bool
  | state _ => true
  | descriptionAndState _ _ => true
  | _ => false
/-- `fn state` (lib.rs 819-825) -/
def stateText : FilterInfo → Str
  | state s => s
  | descriptionAndState _ s => s
  | _ => []
/-- `fn description` (lib.rs 828-834) -/
def descriptionText : FilterInfo → Str
  | description d => d
  | descriptionAndState d _ => d
  | _ => []
end FilterInfo

/-- `Regex::new(text)` and `is_match`: a parameter; `none` for a text that is not a regular expression. -/
abbrev Regexes := Str → Option (Str → Bool)

/-- `Regex::new(text).unwrap()`. -/
def regex (re : Regexes) (text : Str) : Res (Str → Bool) :=
  match re text with
  | some m => .ok m
  | none => .panic

/-- `fn match_state` (lib.rs 841-852). -/
def matchState (re : Regexes) (f : FilterInfo) (i : Ixn) : Res Bool :=
  if !i.states.isEmpty then
    if f.stateText.isEmpty then .ok false
    else (regex re f.stateText).map fun m => i.states.any (fun s => m s.name)
  else .ok (f.hasState && f.stateText.isEmpty)

/-- `fn match_description` (lib.rs 858-861). -/
def matchDescription (re : Regexes) (f : FilterInfo) (i : Ixn) : Res Bool :=
  (regex re f.descriptionText).map fun m => m i.desc

/-- `fn filter_interaction` (lib.rs 864-874); `&&` does not evaluate its right side after a false left side. -/
def filterInteraction (re : Regexes) (i : Ixn) (f : FilterInfo) : Res Bool :=
  if f.hasDescription && f.hasState then
    (matchDescription re f i).bind fun b => if b then matchState re f i else .ok false
  else if f.hasDescription then matchDescription re f i
  else if f.hasState then matchState re f i
  else .ok true

/-- `VerifierHandle::update_filter_info` (pact_ffi/src/verifier/handle.rs 116-137). -/
def updateFilterInfo (d s : Str) (noState : Bool) : FilterInfo :=
  if !d.isEmpty && (!s.isEmpty || noState) then
    if !s.isEmpty then .descriptionAndState d s else .descriptionAndState d []
  else if !d.isEmpty then .description d
  else if !s.isEmpty then .state s
  else if noState then .state []
  else .none

/-- `fn filter_consumers` (lib.rs 876-881): the consumer is `none` for a pact that failed to load. -/
def filterConsumers (consumers : List Str) (consumer : Option Str) : Bool :=
  match consumer with
  | none => true
  | some c => consumers.isEmpty || consumers.contains c

/-! ### Verifying an interaction -/

/-- The environment: state change calls (`true` for setup; `none` for an error), the request to the provider and
the comparison of its answer (`verify_v3_interaction`, `verify_interaction_using_transport`), whether teardown is
enabled, and whether an HTTP client can be configured. -/
structure World (E : Type) where
  change : E → Bool → PState → E × Option (List (Str × Json))
  verify : E → Ixn → List (Str × Json) → E × Bool
  teardown : Bool
  client : Bool

/-- What happened, in order: a state change call with its answer (`none` for an error), and the request to the
provider with the context it was given and whether it was successful. -/
inductive Event where
  | change (setup : Bool) (s : PState) (answer : Option (List (Str × Json)))
  | request (i : Ixn) (context : List (Str × Json)) (ok : Bool)

variable {E : Type}

/-- The loop over the states in `execute_provider_states` (lib.rs 656-668): every state is tried. -/
def changeAll (env : World E) (setup : Bool) : E → List PState → E × List Event × List (Option (List (Str × Json)))
  | e, [] => (e, [], [])
  | e, s :: ss =>
    let (e, r) := env.change e setup s
    let (e, evs, rs) := changeAll env setup e ss
    (e, .change setup s r :: evs, r :: rs)

/-- `HashMap::insert` of all entries, in order. -/
def insertAll (m : List (Str × Json)) (es : List (Str × Json)) : List (Str × Json) :=
  es.foldl (fun m e => OMap.insert e.1 e.2 m) m

/-- `execute_provider_states` (lib.rs 633-686): the values returned by the handlers, or an error if any failed. -/
def executeStates (env : World E) (e : E) (i : Ixn) (setup : Bool) : E × List Event × Option (List (Str × Json)) :=
  let states := if i.states.isEmpty then [⟨[], []⟩] else i.states
  let (e, evs, rs) := changeAll env setup e states
  if rs.any (fun r => r.isNone) then (e, evs, none)
  else (e, evs, some (rs.foldl (fun m r => insertAll m (r.getD [])) []))

/-- `verify_interaction` (lib.rs 410-486): whether it succeeded. -/
def verifyInteraction (env : World E) (e : E) (i : Ixn) : E × List Event × Bool :=
  if !env.client then (e, [], false)
  else
    match executeStates env e i true with
    | (e, evs, none) => (e, evs, false)
    | (e, evs, some context) =>
      let params := i.states.foldl (fun m s => insertAll m s.params) []
      let context := insertAll params context
      let (e, ok) := env.verify e i context
      let evs := evs ++ [.request i context ok]
      if env.teardown then
        match executeStates env e i false with
        | (e, evs', none) => (e, evs ++ evs', false)
        | (e, evs', some _) => (e, evs ++ evs', ok)
      else (e, evs, ok)

/-! ### Verifying a pact -/

/-- `struct VerificationInteractionResult` (verification_result.rs 12-28). -/
structure IResult where
  ixn : Ixn
  passed : Bool
  pending : Bool
deriving DecidableEq

/-- `verify_pact_internal` (lib.rs 1399-1543). -/
def verifyPact (env : World E) (re : Regexes) (f : FilterInfo) (pending : Bool) :
    E → List Ixn → Res (E × List Event × List IResult)
  | e, [] => .ok (e, [], [])
  | e, i :: is =>
    match filterInteraction re i f with
    | .ok false => verifyPact env re f pending e is
    | .ok true =>
      let (e, evs, ok) := verifyInteraction env e i
      (verifyPact env re f pending e is).map fun (e, evs', rs) =>
        (e, evs ++ evs', ⟨i, ok, pending || i.pending⟩ :: rs)
    | _ => .panic

/-! ### Verifying a provider -/

/-- The stages of notices (lib.rs 937-941). -/
inductive Stage where
  | before
  | after (success published : Bool)
deriving DecidableEq, Repr

/-- A pact that was fetched, or an error. -/
inductive Fetched where
  /-- The interactions, the pending flag of the broker if there is a context, and whether the source is one of the
  two broker sources results are published to (lib.rs 1574-1600). -/
  | pact (interactions : List Ixn) (context : Option Bool) (broker : Bool)
  /-- `PactBrokerError::NotFound`. -/
  | notFound
  | failed
deriving DecidableEq

/-- `VerificationExecutionResult` (verification_result.rs 40-54), the number of load errors, the trace, the stages
for which notices were processed, and the results sent to the broker. -/
structure Run (E : Type) where
  env : E
  trace : List Event
  results : List IResult
  errors : List (Option Ixn)      -- `none` is "Failed to load pact"
  pendingErrors : List Ixn
  stages : List Stage
  published : List Bool

/-- The options. -/
structure Options where
  filter : FilterInfo
  publish : Bool
  noPactsIsError : Bool

/-- The two cases of `Err(error)` (lib.rs 1058-1064). -/
def addErrors (rs : List IResult) : List (Option Ixn) × List Ixn :=
  ((rs.filter (fun r => !r.passed && !r.pending)).map (fun r => some r.ixn),
   (rs.filter (fun r => !r.passed && r.pending)).map (fun r => r.ixn))

/-- The stage of the notices after a pact (lib.rs 1088-1102); `errors` and `pendingErrors` are those of all pacts
so far. -/
def afterStage (publish : Bool) (noErrors noPending : Bool) : Stage :=
  if publish then
    if !noErrors || !noPending then .after false true else .after true true
  else
    if !noErrors || noPending then .after false false else .after true false

/-- `publish_to_broker` (lib.rs 1615-1628): the result sent to the broker. -/
def publishedResult (rs : List IResult) : Bool := rs.all (fun r => r.passed)

/-- One iteration of the loop of `verify_provider_async` (lib.rs 1000-1124). -/
def stepPact (env : World E) (re : Regexes) (o : Options) (a : Run E) : Fetched → Res (Run E)
  | .pact interactions context broker =>
    let a := { a with stages := a.stages ++ (if context.isSome then [.before] else []) }
    if interactions.isEmpty then .ok a
    else
      (verifyPact env re o.filter (context.getD false) a.env interactions).map fun (e, evs, rs) =>
        let errors := a.errors ++ (addErrors rs).1
        let pendingErrors := a.pendingErrors ++ (addErrors rs).2
        { env := e
          trace := a.trace ++ evs
          results := a.results ++ rs
          errors := errors
          pendingErrors := pendingErrors
          stages := a.stages ++
            (if context.isSome then [afterStage o.publish errors.isEmpty pendingErrors.isEmpty] else [])
          published := a.published ++ (if o.publish && broker then [publishedResult rs] else []) }
  | .notFound => .ok (if o.noPactsIsError then { a with errors := a.errors ++ [none] } else a)
  | .failed => .ok { a with errors := a.errors ++ [none] }

/-- The loop (lib.rs 1000-1125). -/
def runPacts (env : World E) (re : Regexes) (o : Options) : Run E → List Fetched → Res (Run E)
  | a, [] => .ok a
  | a, p :: ps => (stepPact env re o a p).bind fun a => runPacts env re o a ps

/-- `verify_provider_async` (lib.rs 979-1162), after fetching; the Boolean is `VerificationExecutionResult::result`. -/
def verifyProvider (env : World E) (re : Regexes) (o : Options) (e : E) (ps : List Fetched) : Res (Run E × Bool) :=
  (runPacts env re o ⟨e, [], [], [], [], [], []⟩ ps).map fun a => (a, a.errors.isEmpty)

end Verifier
end Verif
