import Verif.Integration
import Verif.PactFile

/-
  Model of the FFI calls that set the path, the query parameters, the headers and the status of an interaction
  (rust/pact_ffi/src/mock_server/handles.rs 717-744, 863-952, 985-1092, 1435-1562, 1575-1607, 1653-1672, and
  `set_header`, pact_models/src/v4/http_parts.rs 151-185, 583-617).

  Simplified: the calls work on the request or response itself.  Finding the interaction of a handle, rejecting
  interactions that are not HTTP and the returned flag are modelled in `Verif.Handles`.  A missing name (NULL) does
  nothing and is left out.  Parsing JSON text is a parameter.
-/

set_option autoImplicit false

namespace Verif
namespace Parts
open Path Rules RuleJson Generate Integration PactFile QS Query Headers

/-- What the code takes from elsewhere: see `Setup`, the JSON parser (`serde_json::from_str`) and Unicode tables. -/
structure Source where
  setup : Setup
  parse : Str → Option Json
  uc : UC

/-- The category of a part, or an empty one (`add_category`, matchingrules/mod.rs 1260-1268). -/
def catOf (m : MatchingRules) (c : Category) : RuleCategory := (rulesForCategory m c).getD (emptyCat c)

/-- The category after the changes made through the `&mut` that `add_category` returns. -/
def setCat (c : Category) (r : RuleCategory) : MatchingRules → MatchingRules
  | [] => [(c, r)]
  | e :: es => if e.1 = c then (c, r) :: es else e :: setCat c r es

/-- `Either::Right` for arrays, `Either::Left` otherwise (handles.rs 1077-1083). -/
def result : Json → Str ⊕ List Str
  | .arr vs => .inr (vs.map Json.toStr)
  | j => .inl j.toStr

/-- `path_or_status` (handles.rs 995). -/
def pathOrStatus (c : Category) : Bool := decide (c = .path) || decide (c = .status)
/-- `query_or_header` (handles.rs 996). -/
def queryOrHeader (c : Category) : Bool := decide (c = .query) || decide (c = .header)

/-- `path.parent().unwrap_or(DocPath::root())`. -/
def parentOr (p : DocPath) : DocPath := (parent p).getD rootPath

/-- The path for the rules and the generator (handles.rs 1017-1021, 1043-1047, 1056-1060). -/
def targetPath (c : Category) (p : DocPath) : DocPath := if pathOrStatus c then parentOr p else p

/-- An existing entry for the base name is moved to index 0 (handles.rs 1023-1031). -/
def rekey (p : DocPath) (c : RuleCategory) : RuleCategory :=
  match Rules.lookup c.rules (parentOr p) with
  | some l => ⟨c.name, upsert (c.rules.filter fun e => !keyIs (parentOr p) e) (pushIndex (parentOr p) 0) l (fun _ => l)⟩
  | none => c

/-- The `value` attribute of a matcher (handles.rs 1005-1014). -/
def matcherValue (S : Setup) (p : DocPath) (m : Obj) (a : Acc) : Res (Json × Acc) :=
  match RuleJson.get "value" m with
  | some (.arr xs) => (items S p true false 0 xs a).map fun r => (.arr r.1, r.2)
  | some v => .ok (v, a)
  | none => .ok (.null, a)

/-- The entry of the base name is moved for the values after the first (handles.rs 1022-1031). -/
def beforeRules (p : DocPath) (index : Nat) (a : Acc) : Acc :=
  if queryOrHeader a.cat.name && decide (index > 0) then { a with cat := rekey p a.cat } else a

/-- The rules and the generator of the definition are added (handles.rs 1016-1050). -/
def withRules (p : DocPath) (index : Nat) (r : Res (List MatchingRule × Option Generator)) (a : Acc) : Acc :=
  match r with
  | .ok (rs, g) => addGenAt (targetPath a.cat.name (targetPath a.cat.name p)) g
      (addRulesAt (targetPath a.cat.name p) rs (beforeRules (targetPath a.cat.name p) index a))
  | _ => a

/-- An object with a `pact:matcher:type` (handles.rs 1000-1070). -/
def withMatcher (S : Setup) (p : DocPath) (index : Nat) (m : Obj) (a : Acc) : Res (Json × Acc) :=
  match matchersFrom S m with
  | .panic => .panic
  | r => (matcherValue S p m a).map fun v =>
      (v.1, addGenAt (targetPath a.cat.name p) (ownGenerator m) (withRules p index r v.2))

/-- An object (handles.rs 999-1075). -/
def partObject (S : Setup) (p : DocPath) (index : Nat) (m : Obj) (a : Acc) : Res (Json × Acc) :=
  if (RuleJson.get "pact:matcher:type" m).isSome then withMatcher S p index m a
  else .ok ((RuleJson.get "value" m).getD .null, a)

/-- `from_integration_json_v2` (handles.rs 985-1092) on the category. -/
def fromJsonCat (E : Source) (p : DocPath) (index : Nat) (text : Str) (a : Acc) : Res ((Str ⊕ List Str) × Acc) :=
  match E.parse text with
  | some (.obj m) => (partObject E.setup p index m a).map fun r => (result r.1, r.2)
  | _ => .ok (.inl text, a)

/-- `from_integration_json_v2` (handles.rs 985-1092). -/
def fromJsonV2 (E : Source) (c : Category) (p : DocPath) (index : Nat) (text : Str) (rules : MatchingRules)
    (gens : Generators) : Res ((Str ⊕ List Str) × MatchingRules × Generators) :=
  (fromJsonCat E p index text ⟨catOf rules c, gens⟩).map fun r => (r.1, setCat c r.2.cat rules, r.2.gens)

/-- The value, or the first of several (handles.rs 733-739, 1659-1665). -/
def firstOf : Str ⊕ List Str → Str
  | .inl v => v
  | .inr vs => vs.headD []

/-- `pactffi_with_request` (handles.rs 717-744). -/
def withRequest (E : Source) (method path : Option Str) (r : HttpRequest) : Res HttpRequest :=
  (fromJsonV2 E .path empty 0 (path.getD ['/']) r.rules r.gens).map fun v =>
    { r with method := method.getD "GET".toList, path := firstOf v.1, rules := v.2.1, gens := v.2.2 }

/-- `pactffi_response_status_v2` (handles.rs 1652-1672). -/
def responseStatus (E : Source) (status : Option Str) (r : HttpResponse) : Res HttpResponse :=
  (fromJsonV2 E .status empty 0 (status.getD "200".toList) r.rules r.gens).map fun v =>
    { r with status := (parseU16 (firstOf v.1)).getD 0, rules := v.2.1, gens := v.2.2 }

/-- `values[index] = value` after `resize_with(index + 1, Default::default)` if the vector is too short. -/
def setAt {V : Type} (d : V) (i : Nat) (v : V) (vs : List V) : List V :=
  (vs ++ List.replicate (i + 1 - vs.length) d).set i v

/-- `get_mut(name)` with a change, or `insert` of a new entry. -/
def updEntry {V : Type} (name : Str) (f : Option V → V) : List (Str × V) → List (Str × V)
  | [] => [(name, f none)]
  | e :: es => if e.1 = name then (e.1, f (some e.2)) :: es else e :: updEntry name f es

/-- `update_query_map` (handles.rs 930-952). -/
def updateQuery (i : Nat) (name : Str) (v : Option Str) (q : Option QueryMap) : Option QueryMap :=
  some (updEntry name (fun vs => setAt none i v (vs.getD [])) (q.getD []))

/-- The values of a JSON array for index 0 are appended (handles.rs 895-907). -/
def extendQuery (name : Str) (vs : List Str) (q : Option QueryMap) : Option QueryMap :=
  some (updEntry name (fun old => old.getD [] ++ vs.map some) (q.getD []))

/-- The path of a value (handles.rs 874-878, 1445-1449). -/
def valuePath (name : Str) (i : Nat) : DocPath :=
  if i > 0 then pushIndex (pushField rootPath name) i else pushField rootPath name

/-- The query after a value was read (handles.rs 890-911). -/
def storeQuery (i : Nat) (name : Str) (v : Str ⊕ List Str) (q : Option QueryMap) : Option QueryMap :=
  match v with
  | .inl v => updateQuery i name (some v) q
  | .inr vs => if i = 0 then extendQuery name vs q else updateQuery i name vs.head? q

/-- `pactffi_with_query_parameter_v2` (handles.rs 863-928). -/
def withQuery (E : Source) (name : Str) (i : Nat) (value : Option Str) (r : HttpRequest) : Res HttpRequest :=
  match value with
  | some text => (fromJsonV2 E .query (valuePath name i) i text r.rules r.gens).map fun v =>
      { r with query := storeQuery i name v.1 r.query, rules := v.2.1, gens := v.2.2 }
  | none => .ok { r with query := updateQuery i name none r.query }

/-- The spelling of a header that is there already: case-insensitive search (handles.rs 1478-1481,
v4/http_parts.rs 178-185). -/
def headerKey (uc : UC) (h : HeaderMap) (name : Str) : Option Str :=
  (h.find? (fun e => decide (uc.lower e.1 = uc.lower name))).map (·.1)

/-- `set_header` (v4/http_parts.rs 151-162). -/
def setHeader (uc : UC) (name : Str) (vs : List Str) (h : HeaderMap) : HeaderMap :=
  updEntry ((headerKey uc h name).getD name) (fun _ => vs) h

/-- A value for index 0 of a header with values (handles.rs 1510-1534). -/
def mergeValue (value : Str) (parsed values : List Str) : List Str :=
  match values, parsed with
  | [], parsed => parsed
  | _ :: vs, [] => [] :: vs
  | _ :: vs, [_] => value :: vs
  | _ :: _, parsed => parsed

/-- The headers after a value was read (handles.rs 1466-1554). -/
def storeHeader (uc : UC) (i : Nat) (name : Str) (v : Str ⊕ List Str) (h : HeaderMap) : HeaderMap :=
  match v with
  | .inr vs => setHeader uc name vs h
  | .inl v =>
    if i > 0 then updEntry ((headerKey uc h name).getD name) (fun vs => setAt [] i v (vs.getD [])) h
    else match headerKey uc h name with
      | some key => updEntry key (fun vs => mergeValue v (parseHeader uc key v) (vs.getD [])) h
      | none => updEntry name (fun _ => parseHeader uc name v) h

/-- `pactffi_with_header_v2` for a request (handles.rs 1435-1562). -/
def withHeaderReq (E : Source) (name : Str) (i : Nat) (value : Option Str) (r : HttpRequest) : Res HttpRequest :=
  (fromJsonV2 E .header (valuePath name i) i (value.getD []) r.rules r.gens).map fun v =>
    { r with headers := some (storeHeader E.uc i name v.1 (r.headers.getD [])), rules := v.2.1, gens := v.2.2 }

/-- `pactffi_with_header_v2` for a response (handles.rs 1435-1562). -/
def withHeaderRes (E : Source) (name : Str) (i : Nat) (value : Option Str) (r : HttpResponse) : Res HttpResponse :=
  (fromJsonV2 E .header (valuePath name i) i (value.getD []) r.rules r.gens).map fun v =>
    { r with headers := some (storeHeader E.uc i name v.1 (r.headers.getD [])), rules := v.2.1, gens := v.2.2 }

/-- `pactffi_set_header` for a request (handles.rs 1564-1607). -/
def setHeaderReq (uc : UC) (name : Str) (value : Option Str) (r : HttpRequest) : HttpRequest :=
  { r with headers := some (setHeader uc name [value.getD []] (r.headers.getD [])) }

end Parts
end Verif
