import Verif.EnginePlan

/-
  Specification of what the V2 matching engine accepts as a JSON body: a predicate on the expected value, the rules
  and the actual value (`none` when there is no value), with no reference to plans or their execution.
-/
set_option autoImplicit false

namespace Verif
namespace EngineSpec
open Path Rules Matchers Compare Query Headers MatchResult Engine

/-- The value of an entry. -/
def entry (k : Str) : Option Json → Option Json
  | some (.obj es) => Json.lookup k es
  | _ => none

/-- An item of an array. -/
def item (i : Nat) : Option Json → Option Json
  | some (.arr l) => l[i]?
  | _ => none

/-- The number of items a template is applied to: a value that is not an array counts as one item. -/
def count : Option Json → Nat
  | some (.arr l) => l.length
  | _ => 1

/-- Every rule of the best matching rule list accepts the value, whatever the combining logic of the list is.  Rules
are taken as they are after they have been written to the plan and read again; an absent value counts as null. -/
def RulesAccept (P : EP) (ctx : Ctx) (p : DocPath) (collection : Bool) (e : Json) (x : Option Json) : Prop :=
  ∀ r ∈ (best ctx p).rules, ∃ rule, RuleJson.recreate P.rules (ruleFor collection r) = .ok rule
    ∧ jsonMatches P.env e (x.getD .null) rule false = true

/-- A scalar item of an array.  With a rule for the item, an item that is there is not checked. -/
def ItemAccepts (P : EP) (ctx : Ctx) (p : DocPath) (e : Json) (x : Option Json) : Prop :=
  match x with
  | some v => isDefined ctx p = false → v = e
  | none => isDefined ctx p = true → RulesAccept P ctx p false e none

/-- One of the rules is a rule for the entries of an object. -/
def HasEntryRule (rules : List MatchingRule) : Prop :=
  ∃ r ∈ rules, r = .values ∨ (∃ d, r = .eachKey d) ∨ ∃ d, r = .eachValue d

open Classical in
/-- The keys of an object: with a rule for entries the rules decide, without one the keys are the expected ones. -/
noncomputable def KeysAccept (P : EP) (ctx : Ctx) (p : DocPath) (es : List (Str × Json)) (x : Option Json) : Prop :=
  if HasEntryRule (best ctx p).rules then RulesAccept P ctx p true (.obj es) x
  else ∃ fs, x = some (.obj fs) ∧ ∀ k, k ∈ Json.keys fs ↔ k ∈ Json.keys es

mutual
/-- The value is accepted for the expected value at a path of the rules. -/
def Accepts (P : EP) (ctx : Ctx) (p : DocPath) : Json → Option Json → Prop
  | .arr items, x =>
    if isDefined ctx p then RulesAccept P ctx p true (.arr items) x ∧ TemplateAccepts P ctx p items x
    else (∃ l, x = some (.arr l) ∧ l.length = items.length) ∧ ItemsAccept P ctx p 0 items x
  | .obj es, x => KeysAccept P ctx p es x ∧ EntriesAccept P ctx p es x
  | e, x => if isDefined ctx p then RulesAccept P ctx p false e x else x.getD .null = e
termination_by structural j => j
/-- Every item is accepted for the first expected item. -/
def TemplateAccepts (P : EP) (ctx : Ctx) (p : DocPath) : List Json → Option Json → Prop
  | [], _ => True
  | t :: _, x => ∀ i < count x,
    if scalar t then ItemAccepts P ctx (pushStarIndex p) t (item i x)
    else Accepts P ctx (pushStarIndex p) t (item i x)
termination_by structural l => l
/-- The items of an array without a rule: only scalar ones are looked at. -/
def ItemsAccept (P : EP) (ctx : Ctx) (p : DocPath) (i : Nat) : List Json → Option Json → Prop
  | [], _ => True
  | e :: es, x => (scalar e = true → ItemAccepts P ctx (joinIndex p i) e (item i x)) ∧ ItemsAccept P ctx p (i + 1) es x
termination_by structural l => l
/-- The entries of an object. -/
def EntriesAccept (P : EP) (ctx : Ctx) (p : DocPath) : List (Str × Json) → Option Json → Prop
  | [], _ => True
  | e :: es, x => EntryAccepts P ctx p e x ∧ EntriesAccept P ctx p es x
termination_by structural l => l
/-- One entry of an object. -/
def EntryAccepts (P : EP) (ctx : Ctx) (p : DocPath) : Str × Json → Option Json → Prop
  | (k, v), x => Accepts P ctx (pushField p k) v (entry k x)
termination_by structural e => e
end

/-! ### Method and path -/

/-- The methods are the same apart from case. -/
def MethodAccepts (P : EP) (e a : Request) : Prop := P.upper a.method = P.upper e.method

/-- The path is accepted: every rule matches, or without rules the paths are the same. -/
def PathAccepts (P : EP) (ctx : Ctx) (e a : Request) : Prop :=
  if isDefined ctx (partPath "path") then
    ∀ r ∈ (best ctx (partPath "path")).rules, ∃ rule, RuleJson.recreate P.rules (MatchingRule.forSingleItem r) = .ok rule
      ∧ strMatches P.env e.path a.path rule false = true
  else a.path = e.path

/-! ### Query parameters and headers -/

/-- Matching a list of values with a rule: a single expected value is matched with every actual value, any other
number of values is matched as a list. -/
def valuesMatch (P : EP) (rule : MatchingRule) (vs as : List Str) : Bool :=
  match vs with
  | [v] => as.all fun t => strMatches P.env v t rule false
  | vs => listMatches listEqStr vs as rule false

/-- The values are the same; a single expected value is compared with every actual value. -/
def SameValues (vs as : List Str) : Prop :=
  match vs with
  | [v] => ∀ t ∈ as, t = v
  | vs => as = vs

/-- The values of a query parameter or header that is there. -/
def ValuesAccept (P : EP) (ctx : Ctx) (key : Str) (vs as : List Str) : Prop :=
  if isDefined ctx (join rootPath key) then
    ∀ r ∈ (best ctx (join rootPath key)).rules, ∃ rule, RuleJson.recreate P.rules r = .ok rule ∧ valuesMatch P rule vs as = true
  else SameValues vs as

/-- The query parameters are accepted: the names are the same, and the values of each are accepted. -/
def QueryAccepts (P : EP) (ctx : Ctx) (e a : Request) : Prop :=
  (∀ k, k ∈ Json.keys (actualQuery a) ↔ k ∈ Json.keys (e.query.getD [])) ∧
    ∀ k vs as, (k, vs) ∈ OMap.collect (e.query.getD []) → Json.lookup k (actualQuery a) = some as →
      ValuesAccept P ctx k (texts vs) as

/-- The text of the actual values of a header with parameters. -/
def headerText (P : EP) (as : List Str) : Str :=
  match as with
  | [v] => v
  | as => P.debug (.slist as)

/-- A header with parameters: the value is the same, and every expected parameter is there with the same value in
another case. -/
def ParametersAccept (P : EP) (v t : Str) : Prop :=
  let es := stripWhitespace P.uc v
  let ps := stripWhitespace P.uc t
  ps.headD [] = es.headD [] ∧
    ∀ k x, (k, x) ∈ parseCharsetParameters P.uc es.tail →
      ∃ y, Json.lookup k (parseCharsetParameters P.uc ps.tail) = some y ∧ P.uc.lower y = P.uc.lower x

/-- The values of a header that is there: of several values of a header with parameters only the first is compared. -/
def HeaderAccepts (P : EP) (ctx : Ctx) (key : Str) (vs as : List Str) : Prop :=
  if !isDefined ctx (join rootPath key) && parameterisedHeaders.contains (P.uc.lower key) then match vs with
    | [] => True
    | [v] => ParametersAccept P v (headerText P as)
    | v :: _ => ParametersAccept P v (as.headD [])
  else ValuesAccept P ctx key vs as

/-- The headers are accepted. -/
def HeadersAccept (P : EP) (ctx : Ctx) (e a : Request) : Prop :=
  (∀ k ∈ Json.keys (e.part.headers.getD []), P.uc.lower k ∈ Json.keys (actualHeaders P.uc a)) ∧
    ∀ k vs as, (k, vs) ∈ OMap.collect (e.part.headers.getD []) →
      Json.lookup (P.uc.lower k) (actualHeaders P.uc a) = some as → HeaderAccepts P ctx k vs as

/-- Names that are not taken for a wildcard or an index. -/
def NameOk (k : Str) : Prop := k ≠ ['*'] ∧ k ≠ ['[', '*', ']'] ∧ parseUsize k = none

/-- The names of the parameters of a header are not taken for a wildcard or an index, and have no special characters. -/
def ParamNames (P : EP) (v : Str) : Prop :=
  ∀ k x, (k, x) ∈ parseCharsetParameters P.uc (stripWhitespace P.uc v).tail →
    NameOk k ∧ k ≠ [] ∧ '/' ∉ k ∧ '~' ∉ k


/-! ### Bodies -/

/-- The contents of the body of a request that has one. -/
def bytesOf (a : Request) : Option Bytes :=
  match a.part.body with
  | .present b _ => some b
  | _ => none

/-- The text of the content type of a request. -/
def typeText (B : BP) (a : Request) : Str :=
  match contentType B.P.uc B.be a.part with
  | some ct => ct.display
  | none => "NULL".toList

/-- No body is only accepted for an expected JSON body when the rule list for the whole body has no rules, and the
expected body is a scalar or an empty array. -/
def AbsentAccepted (ctx : Ctx) (j : Json) : Prop :=
  isDefined ctx rootPath = true ∧ (best ctx rootPath).rules = [] ∧ (scalar j = true ∨ j = .arr [])

/-- A JSON body is accepted. -/
def JsonAccepts (P : EP) (ctx : Ctx) (j : Json) : Option Bytes → Prop
  | some c => ∃ v, P.parseBytes c = some v ∧ Accepts P ctx rootPath j (some v)
  | none => AbsentAccepted ctx j

/-- The text of a body. -/
def bodyText (P : EP) : Option Bytes → Str
  | some c => P.lossy c
  | none => []

/-- The contents of a body are accepted. -/
def ContentAccepts (P : EP) (ctx : Ctx) (ct : ContentType) (b : Bytes) (a : Request) : Prop :=
  if ct.isJson then ∃ j, P.parseBytes b = some j ∧ JsonAccepts P ctx j (bytesOf a)
  else bodyText P (bytesOf a) = P.lossy b

/-- The content type of an expected request; without one it is taken to be plain text. -/
def declaredType (B : BP) (e : Request) : ContentType :=
  match contentType B.P.uc B.be e.part with
  | some ct => ct
  | none => { main := "text".toList, sub := "plain".toList }

/-- The body is accepted: any body is accepted when its content type is another one. -/
def BodyAccepts (B : BP) (ctx : Ctx) (e a : Request) : Prop :=
  match e.part.body with
  | .missing => True
  | .empty => (bytesOf a).getD [] = []
  | .null => (bytesOf a).getD [] = []
  | .present b _ => typeText B a = (declaredType B e).display → ContentAccepts B.P ctx (declaredType B e) b a

/-- A key that is not empty and has no quote, backslash, slash or tilde. -/
def SafeKey (k : Str) : Prop := k ≠ [] ∧ '\'' ∉ k ∧ '\\' ∉ k ∧ '/' ∉ k ∧ '~' ∉ k

mutual
/-- Expected values whose keys are safe, whose scalar values are read back from their text, and whose arrays fit in
memory. -/
def Nice (P : EP) : Json → Prop
  | .arr items => items.length ≤ usizeLim ∧ NiceL P items
  | .obj es => NiceE P es
  | e => P.parseStr e.text = some e
termination_by structural j => j
def NiceL (P : EP) : List Json → Prop
  | [] => True
  | e :: es => Nice P e ∧ NiceL P es
termination_by structural l => l
def NiceE (P : EP) : List (Str × Json) → Prop
  | [] => True
  | e :: es => NiceP P e ∧ NiceE P es
termination_by structural l => l
def NiceP (P : EP) : Str × Json → Prop
  | (k, v) => SafeKey k ∧ Nice P v
termination_by structural e => e
end

end EngineSpec
end Verif
