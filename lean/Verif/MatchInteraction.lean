import Verif.PactBuilder

/-
  Model of the functions of pact_matching/src/lib.rs that compare whole interactions (`match_interaction_request`,
  `match_interaction_response`, `match_interaction`, 2413-2472) and of `match_message` for interactions of any type
  (2121-2172).  The requests, responses and message contents are compared as in `MatchResult` (the V1 engine);
  plugins are not modelled.
-/

set_option autoImplicit false

namespace Verif
namespace MatchInter
open RuleJson Rules Query Headers PactFile PactV3 PactBuild
open Provider (Libs)

/-- `as_v4_http` (sync_interaction.rs 112-122, message.rs 127-129, v4/synch_http.rs 325-327, v4/async_message.rs,
v4/sync_message.rs 331-333): the request and the response. -/
def asV4Http : AnyInteraction → Option (HttpRequest × HttpResponse)
  | .http i => match httpAsV4 i with
    | .http _ q r => some (q, r)
    | _ => none
  | .message _ => none
  | .v4 (.http _ q r) => some (q, r)
  | .v4 _ => none

/-- `is_message` (sync_interaction.rs 56-58, message.rs 71-73, v4/synch_http.rs 265-267, v4/async_message.rs 293-295,
v4/sync_message.rs 275-277). -/
def isMessage : AnyInteraction → Bool
  | .http _ => false
  | .message _ => true
  | .v4 (.async _ _) => true
  | .v4 _ => false

/-- `is_v4` of an interaction (false for the V3 types, true for those of V4). -/
def isV4Interaction : AnyInteraction → Bool
  | .v4 _ => true
  | _ => false

/-- A request as it is compared. -/
def requestPart (r : HttpRequest) : MatchResult.Request :=
  ⟨r.method, r.path, r.query, ⟨r.headers, Provider.asBody r.body⟩, r.rules⟩

/-- `match_request` (lib.rs 1869-1935), without `MATCHING_ENGINE`. -/
def matchRequests (B : Libs) (e a : HttpRequest) : MatchResult.RequestMatchResult :=
  MatchResult.matchRequest B.env B.file.P.uc B.bodies (requestPart e) (requestPart a)

/-- `match_response` (lib.rs 1970-2013). -/
def matchResponses (B : Libs) (e a : HttpResponse) : List MatchResult.MM :=
  MatchResult.matchResponse B.env B.file.P.uc B.bodies (Provider.asResponse e) (Provider.asResponse a)

/-- `match_interaction_request` (lib.rs 2414-2427). -/
def matchInteractionRequest (B : Libs) (e a : AnyInteraction) : Res MatchResult.RequestMatchResult :=
  match asV4Http e with
  | some (q, _) => match asV4Http a with
    | some (q', _) => .ok (matchRequests B q q')
    | none => .err
  | none => .err

/-- `match_interaction_response` (lib.rs 2430-2445). -/
def matchInteractionResponse (B : Libs) (e a : AnyInteraction) : Res (List MatchResult.MM) :=
  match asV4Http e with
  | some (_, r) => match asV4Http a with
    | some (_, r') => .ok (matchResponses B r r')
    | none => .err
  | none => .err

/-- `match_message` (lib.rs 2121-2172); an interaction that is a message has a message (2130, 2131). -/
def matchMessages (B : Libs) (e a : AnyInteraction) : Res (List MatchResult.MM) :=
  if isMessage e && isMessage a then
    match asAnyMessage B.file.P.uc e, asAnyMessage B.file.P.uc a with
    | some e, some a =>
      (Provider.asMessage B.file e).bind fun e => (Provider.asMessage B.file a).map fun a =>
        MatchResult.messageMismatches B.env B.file.P.uc B.bodies e a
    | _, _ => .panic
  else .ok [.bodyType]

/-- `match_interaction` (lib.rs 2448-2472). -/
def matchInteraction (B : Libs) (e a : AnyInteraction) : Res (List MatchResult.MM) :=
  match asV4Http e with
  | some (q, r) => match asV4Http a with
    | some (q', r') => .ok ((matchRequests B q q').mismatches ++ matchResponses B r r')
    | none => .err
  | none => if isMessage e || isV4Interaction e then matchMessages B e a else .err

end MatchInter
end Verif
