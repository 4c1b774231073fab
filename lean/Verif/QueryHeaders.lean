import Verif.Compare

/-
  Model of the comparison of query parameters (rust/pact_matching/src/query.rs, lib.rs `match_query`) and
  of headers (rust/pact_matching/src/headers.rs, lib.rs `HeaderMatchingContext`), and of
  rust/pact_models/src/headers.rs.

  Hash maps from names to values are association lists in an arbitrary order without duplicate keys.  A
  mismatch keeps a path naming the parameter or header and its kind; texts are dropped.
-/

set_option autoImplicit false

namespace Verif

/-- `str::split(c)` for a character: always at least one piece. -/
def splitOn (c : Char) : Str → List Str
  | [] => [[]]
  | x :: xs => if x = c then [] :: splitOn c xs else match splitOn c xs with
    | [] => [[x]]
    | p :: ps => (x :: p) :: ps

/-- `str::split_once(c)`. -/
def splitOnce (c : Char) : Str → Option (Str × Str)
  | [] => none
  | x :: xs => if x = c then some ([], xs) else (splitOnce c xs).map (fun r => (x :: r.1, r.2))

/-- `str::trim`. -/
def trim (uc : UC) (s : Str) : Str := ((s.dropWhile uc.white).reverse.dropWhile uc.white).reverse

/-- `str::to_ascii_lowercase`. -/
def asciiLower (s : Str) : Str := s.map Char.toLower

/-- `HashMap::insert` on an association list with `String` keys. -/
def insertKV {V : Type} (k : Str) (v : V) : List (Str × V) → List (Str × V)
  | [] => [(k, v)]
  | e :: es => if e.1 = k then (k, v) :: es else e :: insertKV k v es

namespace Query
open Path Rules Matchers Compare

/-- Query parameters of a request: `HashMap<String, Vec<Option<String>>>`. -/
abbrev QueryMap := List (Str × List (Option Str))
/-- Result of comparing query parameters or headers: `HashMap<String, Vec<Mismatch>>`. -/
abbrev EntryResults := List (Str × List Mismatch)

/-- `value.iter().map(|v| v.clone().unwrap_or_default())` (query.rs 22, 25): a parameter without a value
is treated as one with the empty value. -/
def texts (vs : List (Option Str)) : List Str := vs.map (fun v => v.getD [])

/-- `fn compare_query_parameter_value` (query.rs 91-123). -/
def compareQueryValue (env : Env) (p : DocPath) (e a : Str) (i : Nat) (ctx : Ctx) : Outcome :=
  let ip := join p (natStr i)
  if isDefined ctx ip then
    match matchValues (strMatches env e a) (best ctx ip) with
    | .ok _ => .ok ()
    | .error ms => .error (ms.map fun _ => ⟨p, .value⟩)
  else if strMatches env e a .equality false then .ok () else .error [⟨p, .value⟩]

/-- The loop of `fn compare_query_parameter_values` (query.rs 132-153) from index `i` on; the expected
values are padded with empty strings. -/
def queryLoop (env : Env) (p : DocPath) (ctx : Ctx) : Nat → List Str → List Str → List Mismatch
  | _, es, [] => es.flatMap (fun _ => if isDefined ctx p then [] else [⟨p, .missingItem⟩])
  | i, es, a :: as =>
    errs (compareQueryValue env p (es.headD []) a i ctx) ++ queryLoop env p ctx (i + 1) es.tail as

/-- `fn compare_query_parameter_values` (query.rs 125-160). -/
def compareQueryValues (env : Env) (p : DocPath) (e a : List Str) (ctx : Ctx) : Outcome :=
  ofList (queryLoop env p ctx 0 e a)

/-- Equality of lists of strings. -/
def listEqStr (a b : List Str) : Bool := decide (a = b)

/-- `fn match_query_values` (query.rs 53-89). -/
def matchQueryValues (env : Env) (key : Str) (e a : List Str) (ctx : Ctx) : Outcome :=
  let p := join rootPath key
  if isDefined ctx p then
    compareListsWithRules listEqStr (fun q e a c => compareQueryValue env q e a 0 c) (best ctx p) p e a
      (cloneWith ctx ctx.cat)
  else if e.isEmpty && !a.isEmpty then .error [⟨p, .emptyEntry⟩]
  else mergeResult (compareQueryValues env p e a ctx)
    (if e.length ≠ a.length then .error [⟨p, .length⟩] else .ok ())

/-- `fn match_query_maps` (query.rs 15-51). -/
def matchQueryMaps (env : Env) (e a : QueryMap) (ctx : Ctx) : EntryResults :=
  e.map (fun kv => (kv.1, match Json.lookup kv.1 a with
    | some av => errs (matchQueryValues env kv.1 (texts kv.2) (texts av) ctx)
    | none => [⟨join rootPath kv.1, .missingEntry⟩]))
  ++ (a.filter (fun kv => !Json.hasKey kv.1 e)).map (fun kv =>
    (kv.1, [⟨join rootPath kv.1, .unexpectedEntry⟩]))

/-- `pub fn match_query` (lib.rs 1634-1661). -/
def matchQuery (env : Env) (e a : Option QueryMap) (ctx : Ctx) : EntryResults :=
  match a, e with
  | some aq, some eq => matchQueryMaps env eq aq ctx
  | some aq, none => aq.map (fun kv => (kv.1, [⟨join rootPath kv.1, .unexpectedEntry⟩]))
  | none, some eq => eq.map (fun kv => (kv.1, [⟨join rootPath kv.1, .missingEntry⟩]))
  | none, none => []

end Query

namespace Headers
open Path Rules Matchers Compare Query

/-- Headers of a request or response: `HashMap<String, Vec<String>>`. -/
abbrev HeaderMap := List (Str × List Str)

/-- `fn strip_whitespace(val, ";")` (headers.rs 17-19). -/
def stripWhitespace (uc : UC) (s : Str) : List Str :=
  ((splitOn ';' s).map (trim uc)).filter (fun v => !v.isEmpty)

/-- One step of `fn parse_charset_parameters` (headers.rs 22-29). -/
def charsetStep (uc : UC) (m : List (Str × Str)) (p : Str) : List (Str × Str) :=
  match splitOnce '=' p with
  | some (k, v) => insertKV (trim uc k) (trim uc v) m
  | none => m

/-- `fn parse_charset_parameters` (headers.rs 21-30). -/
def parseCharsetParameters (uc : UC) (ps : List Str) : List (Str × Str) := ps.foldl (charsetStep uc) []

/-- `fn match_parameter_header` (headers.rs 32-73): the number of mismatches. -/
def matchParameterHeader (uc : UC) (e a : Str) : Nat :=
  let ev := stripWhitespace uc e
  let av := stripWhitespace uc a
  if ev.headD [] = av.headD [] then
    let am := parseCharsetParameters uc av.tail
    ((parseCharsetParameters uc ev.tail).filter (fun kv => match Json.lookup kv.1 am with
      | some v => decide (asciiLower kv.2 ≠ asciiLower v)
      | none => true)).length
  else 1

/-- `PARAMETERISED_HEADERS` (pact_models/src/headers.rs 1). -/
def parameterisedHeaders : List Str := ["accept".toList, "content-type".toList]

/-- `fn match_header_value` (headers.rs 76-126); `single_value` changes the texts only. -/
def matchHeaderValue (env : Env) (uc : UC) (key : Str) (i : Nat) (e a : Str) (ctx : Ctx) : Outcome :=
  let p := join rootPath (uc.lower key)
  let ip := join p (natStr i)
  let e := trim uc e
  let a := trim uc a
  if isDefined ctx p then
    match matchValues (strMatches env e a) (best ctx p) with
    | .ok _ => .ok ()
    | .error ms => .error (ms.map fun _ => ⟨p, .value⟩)
  else if isDefined ctx ip then
    match matchValues (strMatches env e a) (best ctx ip) with
    | .ok _ => .ok ()
    | .error ms => .error (ms.map fun _ => ⟨p, .value⟩)
  else if parameterisedHeaders.contains (uc.lower key) then
    ofList (List.replicate (matchParameterHeader uc e a) ⟨p, .value⟩)
  else if strMatches env e a .equality false then .ok () else .error [⟨p, .value⟩]

/-- `fn find_entry` (headers.rs 128-133), the value. -/
def findEntry {V : Type} (uc : UC) (m : List (Str × V)) (key : Str) : Option V :=
  (m.find? (fun kv => decide (uc.lower kv.1 = uc.lower key))).map (·.2)

/-- `HeaderMatchingContext::new` (lib.rs 677-695): lower case all rule paths; of several paths that become
equal, the last one in iteration order is kept (`collect` into a `HashMap`). -/
def lowerCat (uc : UC) (c : RuleCategory) : RuleCategory :=
  ⟨c.name, c.rules.foldl (fun m e => upsert m (toLowerCase uc e.1) e.2 (fun _ => e.2)) []⟩

/-- `HeaderMatchingContext::new` on a context. -/
def lowerCtx (uc : UC) (ctx : Ctx) : Ctx := { ctx with cat := lowerCat uc ctx.cat }

/-- The loop over the values of a header without a rule on the header itself (headers.rs 167-186) from
index `i` on; the expected values are padded with empty strings. -/
def headerLoop (env : Env) (uc : UC) (key : Str) (ctx : Ctx) : Nat → List Str → List Str → List Mismatch
  | _, es, [] => es.map (fun _ => ⟨join rootPath (uc.lower key), .missingItem⟩)
  | i, es, a :: as =>
    errs (matchHeaderValue env uc key i (es.headD []) a ctx) ++ headerLoop env uc key ctx (i + 1) es.tail as

/-- The comparison of the values of one header that is present (headers.rs 143-190).  `clone_with` of the
header context (lib.rs 735-744) lower-cases the rule paths again; the model does this in the callback. -/
def matchHeaderEntry (env : Env) (uc : UC) (key : Str) (e a : List Str) (ctx : Ctx) : List Mismatch :=
  let p := join rootPath (uc.lower key)
  if e.isEmpty && !a.isEmpty then [⟨p, .emptyEntry⟩]
  else match e, a with
    | [ev], [av] => errs (matchHeaderValue env uc key 0 ev av ctx)
    | _, _ =>
      if isDefined ctx p then
        errs (compareListsWithRules listEqStr
          (fun _ e a c => matchHeaderValue env uc key 0 e a (lowerCtx uc c)) (best ctx p) p e a
          (lowerCtx uc ctx))
      else headerLoop env uc key ctx 0 e a

/-- `fn match_header_maps` (headers.rs 135-201). -/
def matchHeaderMaps (env : Env) (uc : UC) (e a : HeaderMap) (ctx : Ctx) : EntryResults :=
  e.map (fun kv => (kv.1, match findEntry uc a kv.1 with
    | some av => matchHeaderEntry env uc kv.1 kv.2 av ctx
    | none => [⟨join rootPath (uc.lower kv.1), .missingEntry⟩]))

/-- `pub fn match_headers` (headers.rs 204-220). -/
def matchHeaders (env : Env) (uc : UC) (e a : Option HeaderMap) (ctx : Ctx) : EntryResults :=
  match a, e with
  | some ah, some eh => matchHeaderMaps env uc eh ah ctx
  | some _, none => []
  | none, some eh => eh.map (fun kv => (kv.1, [⟨join rootPath (uc.lower kv.1), .missingEntry⟩]))
  | none, none => []

/-- The header comparison of `match_request` (lib.rs 1922-1926, 1933) and `match_response`: the rules of the
`header` category of the expected message are lower-cased first. -/
def compareHeaders (env : Env) (uc : UC) (e a : Option HeaderMap) (rules : RuleCategory)
    (config : DiffConfig) : EntryResults :=
  matchHeaders env uc e a (lowerCtx uc ⟨rules, config⟩)

end Headers
end Verif
