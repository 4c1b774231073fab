import Verif.Rules
import Verif.Json

/-
  Model of `rust/pact_matching/src/matchers.rs`, of `impl Matches<&Value> for Value` in
  `rust/pact_matching/src/json.rs`, and of the list and map matchers in
  `rust/pact_matching/src/matchingrules.rs`.

  Results are `Bool` (`Ok`/`Err`): the error texts are dropped.
-/

namespace Verif

/-- `str::contains`. -/
def containsStr : Str → Str → Bool
  | [], needle => needle.isEmpty
  | c :: cs, needle => needle.isPrefixOf (c :: cs) || containsStr cs needle

/-- The external libraries the matchers call: regular expressions (`onig`), semantic versions
(`semver`), date/time validation (`chrono` based), content type detection and `f64` parsing. -/
structure Env where
  /-- `Regex::new(re)`: `none` if invalid, else its `is_match`. -/
  regex : Str → Option (Str → Bool)
  /-- `Version::parse(s).is_ok()`. -/
  semver : Str → Bool
  /-- `validate_datetime(value, format).is_ok()`. -/
  datetime : Str → Str → Bool
  /-- `match_content_type(bytes of the string, content type).is_ok()`. -/
  contentTypeStr : Str → Str → Bool
  /-- `match_content_type(convert_data(json), content type).is_ok()`. -/
  contentTypeJson : Json → Str → Bool
  /-- `str::parse::<f64>().is_ok()`. -/
  parseF64 : Str → Bool

/-- A concrete environment, used in examples and witnesses: a regular expression matches by
substring; dates, versions and content types are never valid; `f64` texts are digit strings. -/
def Env.simple : Env where
  regex := fun re => some (fun s => containsStr s re)
  semver := fun _ => false
  datetime := fun _ _ => false
  contentTypeStr := fun _ _ => false
  contentTypeJson := fun _ _ => false
  parseF64 := fun s => (parseUsize s).isSome

namespace Matchers

/-- `match Regex::new(regex) { Ok(re) => re.is_match(s), Err(_) => Err }` (json.rs 70-85). -/
def regexMatches (env : Env) (re s : Str) : Bool :=
  match env.regex re with
  | some f => f s
  | none => false

/-- JSON kinds, as distinguished by the pattern match on `(self, actual)` (json.rs 97-108). -/
inductive Kind where
  | array | bool | number | null | object | string
deriving Repr, DecidableEq

/-- The kind of a JSON value. -/
def kind : Json → Kind
  | .arr _ => .array
  | .bool _ => .bool
  | .num _ => .number
  | .null => .null
  | .obj _ => .object
  | .str _ => .string

/-- Both values are of the same kind (json.rs 99-104). -/
def sameKind (e a : Json) : Bool := decide (kind e = kind a)

/-- Length of the actual value if both values are arrays (json.rs 111, 127, 143). -/
def arrayLens : Json → Json → Option Nat
  | .arr _, .arr a => some a.length
  | _, _ => none

/-- `MatchingRule::MinType` on JSON values (json.rs 109-124). -/
def jsonMin (e a : Json) (cascaded : Bool) (min : Nat) : Bool :=
  match arrayLens e a with
  | some n => !(!cascaded && decide (n < min))
  | none => sameKind e a

/-- `MatchingRule::MaxType` on JSON values (json.rs 125-140). -/
def jsonMax (e a : Json) (cascaded : Bool) (max : Nat) : Bool :=
  match arrayLens e a with
  | some n => !(!cascaded && decide (n > max))
  | none => sameKind e a

/-- `MatchingRule::MinMaxType` on JSON values (json.rs 141-158). -/
def jsonMinMax (e a : Json) (cascaded : Bool) (min max : Nat) : Bool :=
  match arrayLens e a with
  | some n => if !cascaded && decide (n < min) then false else !(!cascaded && decide (n > max))
  | none => sameKind e a

/-- Default format if none is given (json.rs 191-195, 209-213, 227-231). -/
def fmtOr (dflt : String) (s : Str) : Str := if s.isEmpty then dflt.toList else s

/-- `impl Matches<&Value> for Value` (json.rs 67-285). -/
def jsonMatches (env : Env) (e a : Json) (rule : MatchingRule) (cascaded : Bool) : Bool :=
  match rule with
  | .regex re => regexMatches env re a.matcherText
  | .includes s => containsStr a.matcherText s
  | .type => sameKind e a
  | .minType min => jsonMin e a cascaded min
  | .maxType max => jsonMax e a cascaded max
  | .minMaxType min max => jsonMinMax e a cascaded min max
  | .equality => decide (e = a)
  | .values => decide (e = a)
  | .null => decide (kind a = .null)
  | .integer => a.isInt
  | .decimal => a.isFloat
  | .number => a.isNumber
  | .date f => env.datetime a.toStr (fmtOr "yyyy-MM-dd" f)
  | .time f => env.datetime a.toStr (fmtOr "HH:mm:ss" f)
  | .timestamp f => env.datetime a.toStr (fmtOr "yyyy-MM-dd'T'HH:mm:ssXXX" f)
  | .contentType ct => env.contentTypeJson a ct
  | .boolean => match a with
    | .bool _ => true
    | .str s => decide (s = "true".toList) || decide (s = "false".toList)
    | _ => false
  | .notEmpty => match a with
    | .null => false
    | .str s => !s.isEmpty
    | .arr l => !l.isEmpty
    | .obj o => !o.isEmpty
    | _ => true
  | .semver => match a with
    | .str s => env.semver s
    | _ => false
  | .arrayContains _ => true
  | .statusCode _ => true
  | .eachKey _ => true
  | .eachValue _ => true

/-- `fn match_status_code` (matchers.rs 806-824). -/
def matchStatusCode (code : Nat) : HttpStatus → Bool
  | .information => decide (100 ≤ code) && decide (code ≤ 199)
  | .success => decide (200 ≤ code) && decide (code ≤ 299)
  | .redirect => decide (300 ≤ code) && decide (code ≤ 399)
  | .clientError => decide (400 ≤ code) && decide (code ≤ 499)
  | .serverError => decide (500 ≤ code) && decide (code ≤ 599)
  | .statusCodes cs => cs.contains code
  | .nonError => decide (code < 400)
  | .error => decide (code ≥ 400)

/-- `str::parse::<u16>()`. -/
def parseU16 (s : Str) : Option Nat :=
  match s with
  | '+' :: r => parseDigits 65536 r
  | _ => parseDigits 65536 s

/-- `_ => if !cascaded || matcher.can_cascade() { Err } else { Ok }` (matchers.rs 292-296). -/
def fallback (rule : MatchingRule) (cascaded : Bool) : Bool := !(!cascaded || rule.canCascade)

/-- `impl Matches<&str> for &str` (matchers.rs 163-302). -/
def strMatches (env : Env) (e a : Str) (rule : MatchingRule) (cascaded : Bool) : Bool :=
  match rule with
  | .regex re => regexMatches env re a
  | .equality => decide (e = a)
  | .values => decide (e = a)
  | .type | .minType _ | .maxType _ | .minMaxType _ _ => true
  | .includes s => containsStr a s
  | .number | .decimal => env.parseF64 a
  | .integer => (parseUsize a).isSome
  | .date f => env.datetime a (fmtOr "yyyy-MM-dd" f)
  | .time f => env.datetime a (fmtOr "HH:mm:ss" f)
  | .timestamp f => env.datetime a (fmtOr "yyyy-MM-dd'T'HH:mm:ssXXX" f)
  | .boolean => decide (a = "true".toList) || decide (a = "false".toList)
  | .statusCode st => match parseU16 a with
    | some c => matchStatusCode c st
    | none => false
  | .notEmpty => !a.isEmpty
  | .semver => env.semver a
  | .contentType ct => env.contentTypeStr a ct
  | r => fallback r cascaded

/-- `impl Matches<u64> for u64` (matchers.rs 353-398); also used for `u16` (546-552), i.e. for response
status codes.  `actual as u16` keeps the low 16 bits. -/
def u64Matches (env : Env) (e a : Nat) (rule : MatchingRule) (cascaded : Bool) : Bool :=
  match rule with
  | .regex re => regexMatches env re (natStr a)
  | .type | .minType _ | .maxType _ | .minMaxType _ _ => true
  | .equality => decide (e = a)
  | .includes s => containsStr (natStr a) s
  | .number | .integer => true
  | .decimal => false
  | .statusCode st => matchStatusCode (a % 65536) st
  | r => fallback r cascaded

/-- `impl Matches<&[T]> for &[T]` (pact_matching/src/matchingrules.rs 35-93), over the equality of
elements. -/
def listMatches {T} (eq : List T → List T → Bool) (e a : List T) (rule : MatchingRule) (cascaded : Bool) :
    Bool :=
  match rule with
  | .minType min => !(!cascaded && decide (a.length < min))
  | .maxType max => !(!cascaded && decide (a.length > max))
  | .minMaxType min max =>
    if !cascaded && decide (a.length < min) then false else !(!cascaded && decide (a.length > max))
  | .equality => eq e a
  | .notEmpty => !a.isEmpty
  | .null => false
  | .statusCode _ => false
  | _ => true

/-- `impl Matches<&BTreeMap<String, T>> for BTreeMap<String, T>` (pact_matching/src/matchingrules.rs
179-232). -/
def mapMatches {T} (eq : List (Str × T) → List (Str × T) → Bool) (e a : List (Str × T))
    (rule : MatchingRule) (cascaded : Bool) : Bool :=
  match rule with
  | .regex _ => true
  | .type => true
  | .minType min => !(!cascaded && decide (a.length < min))
  | .maxType max => !(!cascaded && decide (a.length > max))
  | .minMaxType min max =>
    if !cascaded && decide (a.length < min) then false else !(!cascaded && decide (a.length > max))
  | .equality => eq e a
  | .notEmpty => !a.isEmpty
  | .arrayContains _ => true
  | .eachKey _ => true
  | .eachValue _ => true
  | .values => true
  | _ => false

/-- `pub fn match_values` (matchers.rs 773-803), given the verdict of each single rule; the result is
the list of failed rules (`[none]` stands for "No matcher found for path"), empty meaning `Ok`. -/
def matchValues (verdict : MatchingRule → Bool → Bool) (rl : RuleList) : Except (List (Option MatchingRule)) Unit :=
  if rl.rules.isEmpty then .error [none]
  else
    let failed := (rl.rules.filter (fun r => !verdict r rl.cascaded)).map some
    match rl.logic with
    | .and => if rl.rules.all (fun r => verdict r rl.cascaded) then .ok () else .error failed
    | .or => if rl.rules.any (fun r => verdict r rl.cascaded) then .ok () else .error failed

/-- `impl Matches<&Bytes> for Bytes`, outcome of the `Equality` arm (matchers.rs 732-739): building the
error message slices both byte strings at 10 with `split_at`, which panics on shorter ones. -/
def bytesEquality (e a : List UInt8) : Res Unit :=
  if e = a then .ok ()
  else if e.length < 10 ∨ a.length < 10 then .panic
  else .err

end Matchers
end Verif
