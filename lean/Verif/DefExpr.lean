import Verif.QueryStrings
import Verif.Rules

/-
  Model of `rust/pact_models/src/matchingrules/expressions.rs`: the lexer, the recursive descent parser and
  the merge of matching rule definition expressions such as
  `matching(type,'Name')` or `atLeast(2), eachValue(matching(regex, '\d+', '1234'))`.

  The lexer of the code is generated by the `logos` crate from the patterns of `MatcherDefinitionToken`
  (256-312): the model implements the documented meaning of these patterns (skip white space, longest match,
  more specific pattern first).  What a text that matches no pattern consumes is left open (`bad`), except
  that a character that starts no pattern is an illegal token of its own.  Error messages are dropped.
-/

set_option autoImplicit false

namespace Verif
namespace DefExpr

/-- What the parser takes from libraries: the Unicode `White_Space` property (`str::trim_start`), the
`semver` crate, and how many more characters an illegal token covers after its first one (`logos`). -/
structure Lib where
  uc : UC
  semver : Str → Bool
  bad : Str → Nat

/-- `enum MatcherDefinitionToken` (expressions.rs 256-312); the numbers of `Int` and `Num` are recomputed from
the text of the token. -/
inductive Tok where
  | matching | notEmpty | eachKey | eachValue | atLeast | atMost
  | leftBracket | rightBracket | comma | string | id | int | num | decimal | decimalPart | boolean | null | dollar
deriving DecidableEq, Repr

/-- The characters of `#[logos(skip r"[ \t\n\f]+")]` (expressions.rs 257). -/
def skip (c : Char) : Bool := c == ' ' || c == '\t' || c == '\n' || c == '\x0c'

/-- The tokens spelled with letters (expressions.rs 259-275, 304-308), which win over `[a-zA-Z]+` (289). -/
def keywords : List (Str × Tok) :=
  [("matching".toList, .matching), ("notEmpty".toList, .notEmpty), ("eachKey".toList, .eachKey),
   ("eachValue".toList, .eachValue), ("atLeast".toList, .atLeast), ("atMost".toList, .atMost),
   ("true".toList, .boolean), ("false".toList, .boolean), ("null".toList, .null)]

/-- The token of a word of letters. -/
def wordTok (w : Str) : Tok := (Json.lookup w keywords).getD .id

/-- The longest match of `(?:[^']|\\')*'` (expressions.rs 286); `esc` tells that the last character was a
backslash.  A quote after a backslash may end the string or be part of it. -/
def strEnd : Bool → Str → Option (Str × Str)
  | _, [] => none
  | esc, c :: cs =>
    if c = '\'' then
      if esc then
        match strEnd false cs with
        | some (a, r) => some (c :: a, r)
        | none => some ([c], cs)
      else some ([c], cs)
    else (strEnd (c == '\\') cs).map fun (a, r) => (c :: a, r)

/-- A token: its kind (`none` for an error), its text (`lex.slice()`) and what follows (`lex.remainder()`). -/
structure Lexeme where
  tok : Option Tok
  text : Str
  rest : Str
deriving DecidableEq, Repr

/-- An illegal token at the start of a text. -/
def illegal (L : Lib) (s : Str) : Lexeme :=
  ⟨none, s.take (L.bad s + 1), s.drop (L.bad s + 1)⟩

/-- A run of letters. -/
def word (s : Str) : Lexeme :=
  ⟨some (wordTok (s.takeWhile Char.isAlpha)), s.takeWhile Char.isAlpha, s.dropWhile Char.isAlpha⟩

/-- `.` and digits after it (expressions.rs 301-302, 298-299), if that is what a text starts with. -/
def fraction : Str → Option (Str × Str)
  | '.' :: s => if (s.takeWhile Char.isDigit).isEmpty then none
      else some ('.' :: s.takeWhile Char.isDigit, s.dropWhile Char.isDigit)
  | _ => none

/-- `i64::MIN.abs()`. -/
def i64Lim : Nat := 2 ^ 63

/-- A text starting with a digit: `[0-9]\.[0-9]+` (expressions.rs 298) or `[0-9]+` (295), which is an error when
it does not fit. -/
def number (s : Str) : Lexeme :=
  let ds := s.takeWhile Char.isDigit
  let r := s.dropWhile Char.isDigit
  match (if ds.length = 1 then fraction r else none) with
  | some (f, r') => ⟨some .decimal, ds ++ f, r'⟩
  | none => ⟨if (parseDigits usizeLim ds).isSome then some .num else none, ds, r⟩

/-- A text after a minus sign: `-[0-9]\.[0-9]+` (expressions.rs 298) or `-[0-9]+` (292). -/
def negative (L : Lib) (s : Str) : Lexeme :=
  let ds := s.takeWhile Char.isDigit
  let r := s.dropWhile Char.isDigit
  if ds.isEmpty then illegal L ('-' :: s) else
  match (if ds.length = 1 then fraction r else none) with
  | some (f, r') => ⟨some .decimal, '-' :: ds ++ f, r'⟩
  | none => ⟨if (parseDigits (i64Lim + 1) ds).isSome then some .int else none, '-' :: ds, r⟩

/-- A text after a quote (expressions.rs 286). -/
def string (L : Lib) (s : Str) : Lexeme :=
  match strEnd false s with
  | some (a, r) => ⟨some .string, '\'' :: a, r⟩
  | none => illegal L ('\'' :: s)

/-- A text starting with a dot (expressions.rs 301-302). -/
def point (L : Lib) (s : Str) : Lexeme :=
  match fraction s with
  | some (f, r) => ⟨some .decimalPart, f, r⟩
  | none => illegal L s

/-- A token of one character. -/
def single (t : Tok) (c : Char) (cs : Str) : Lexeme := ⟨some t, [c], cs⟩

/-- The token at the start of a text that starts with no white space (expressions.rs 258-312). -/
def token (L : Lib) (c : Char) (cs : Str) : Lexeme :=
  if c.isAlpha then word (c :: cs)
  else if c.isDigit then number (c :: cs)
  else if c = '(' then single .leftBracket c cs
  else if c = ')' then single .rightBracket c cs
  else if c = ',' then single .comma c cs
  else if c = '$' then single .dollar c cs
  else if c = '\'' then string L cs
  else if c = '-' then negative L cs
  else if c = '.' then point L (c :: cs)
  else illegal L (c :: cs)

/-- `lex.next()` (`Logos::lexer`, expressions.rs 256-312). -/
def next (L : Lib) (s : Str) : Option Lexeme :=
  match s.dropWhile skip with
  | [] => none
  | c :: cs => some (token L c cs)

/-- `str::trim_matches('\'')` (expressions.rs 800, 924). -/
def trimQuotes (s : Str) : Str :=
  ((s.dropWhile (· == '\'')).reverse.dropWhile (· == '\'')).reverse

/-! ## Strings -/

/-- `u32::from_str_radix(b, 16)` (expressions.rs 977): an optional plus sign and hexadecimal digits. -/
def hexDigits : Nat → Str → Option Nat
  | acc, [] => some acc
  | acc, c :: cs => match QS.hexVal c with
    | some d => hexDigits (acc * 16 + d) cs
    | none => none

/-- See `hexDigits`: without a plus sign. -/
def unsigned : Str → Str
  | [] => []
  | c :: r => if c = '+' then r else c :: r

/-- See `hexDigits`. -/
def hexCode (b : Str) : Option Nat :=
  if (unsigned b).isEmpty then none
  else (hexDigits 0 (unsigned b)).bind fun n => if n < 2 ^ 32 then some n else none

/-- `char::from_u32(code).unwrap_or(REPLACEMENT_CHARACTER)` (expressions.rs 981). -/
def charOf (n : Nat) : Char := if n.isValidChar then Char.ofNat n else '\uFFFD'

/-- Where `process_raw_string` stands in an escape sequence. -/
inductive Escape where
  | plain
  | slash
  | u
  | four (b : Str)
  | brace (b : Str)
deriving DecidableEq, Repr

/-- The end of a `\u` escape (expressions.rs 977-982). -/
def unicode (b : Str) (rest : Res Str) : Res Str :=
  match hexCode b with
  | some n => rest.map (charOf n :: ·)
  | none => .err

/-- The characters with an escape of their own (expressions.rs 950-955). -/
def escapeOf (c : Char) : Option Char :=
  if c = '\\' then some '\\'
  else if c = 'b' then some '\x08'
  else if c = 'f' then some '\x0c'
  else if c = 'n' then some '\n'
  else if c = 'r' then some '\r'
  else if c = 't' then some '\t'
  else none

/-- `process_raw_string` (expressions.rs 941-996). -/
def unescape : Escape → Str → Res Str
  | .plain, [] => .ok []
  | .slash, [] => .ok ['\\']
  | .u, [] => .err
  | .four _, [] => .err
  | .brace _, [] => .err
  | .plain, c :: cs => if c = '\\' then unescape .slash cs else (unescape .plain cs).map (c :: ·)
  | .slash, c :: cs => match escapeOf c with
    | some e => (unescape .plain cs).map (e :: ·)
    | none => if c = 'u' then unescape .u cs else (unescape .plain cs).map fun r => '\\' :: c :: r
  | .u, c :: cs => if c = '{' then unescape (.brace []) cs else unescape (.four [c]) cs
  | .four b, c :: cs =>
    if b.length = 3 then unicode (b ++ [c]) (unescape .plain cs) else unescape (.four (b ++ [c])) cs
  | .brace b, c :: cs =>
    if c = '}' then unicode b (unescape .plain cs) else unescape (.brace (b ++ [c])) cs

/-! ## The parser -/

/-- `lex.next()` and a check of the token: the text of the token and the rest (`Err` also at the end). -/
def expect (L : Lib) (t : Tok) (s : Str) : Res (Str × Str) :=
  match next L s with
  | none => .err
  | some l => if l.tok = some t then .ok (l.text, l.rest) else .err

/-- `parse_string` (expressions.rs 920-939). -/
def parseString (L : Lib) (s : Str) : Res (Str × Str) :=
  (expect L .string s).bind fun (t, r) => (unescape .plain (trimQuotes t)).map fun x => (x, r)

/-- `parse_comma` (expressions.rs 1029-1045). -/
def parseComma (L : Lib) (s : Str) : Res Str := (expect L .comma s).map Prod.snd

/-- `impl Into<DataType> for ValueType` (expressions.rs 174-185). -/
def dataType : ValueType → DataType
  | .unknown => .raw
  | .string => .string
  | .number => .decimal
  | .integer => .integer
  | .decimal => .decimal
  | .boolean => .boolean

/-- A value, its type and its generator. -/
abbrev Value := Str × ValueType × Option Generator

/-- The decimal part after a whole number (expressions.rs 805-811, 816-822, 843-849, 888-894): when a dot
follows, the next token whatever it is.  `none`: no dot follows. -/
def decimalPart (L : Lib) (r : Str) : Option (Res (Str × Str)) :=
  if r.head? = some '.' then
    some (match next L r with
      | none => .err
      | some l => .ok (l.text, l.rest))
  else none

/-- A whole number, or its decimal when a dot follows. -/
def wholeOr (L : Lib) (whole dec : ValueType) (t r : Str) : Res (Value × Str) :=
  match decimalPart L r with
  | some p => p.map fun (f, r') => ((t ++ f, dec, none), r')
  | none => .ok ((t, whole, none), r)

/-- `parse_primitive_value` (expressions.rs 793-831) with `already_called`. -/
def parseLiteral (L : Lib) (l : Lexeme) : Res (Value × Str) :=
  match l.tok with
  | some .string => .ok ((trimQuotes l.text, .string, none), l.rest)
  | some .null => .ok (([], .string, none), l.rest)
  | some .int => wholeOr L .integer .decimal l.text l.rest
  | some .num => wholeOr L .integer .decimal l.text l.rest
  | some .decimal => .ok ((l.text, .decimal, none), l.rest)
  | some .boolean => .ok ((l.text, .boolean, none), l.rest)
  | _ => .err

/-- `lex.next().ok_or_else(…)?`. -/
def nextOr (L : Lib) (s : Str) : Res Lexeme :=
  match next L s with
  | none => .err
  | some l => .ok l

/-- `from_provider_state` (expressions.rs 1081-1096). -/
def fromProviderState (L : Lib) (s : Str) : Res (Value × Str) :=
  (expect L .leftBracket s).bind fun (_, s) =>
  (parseString L s).bind fun (e, s) =>
  (parseComma L s).bind fun s =>
  (nextOr L s).bind fun l =>
  (parseLiteral L l).bind fun ((v, ty, _), s) =>
  (expect L .rightBracket s).map fun (_, s) =>
    ((v, ty, some (.providerState e (some (dataType ty)))), s)

/-- `"fromProviderState"`. -/
def fps : Str := "fromProviderState".toList

/-- The token is the word `fromProviderState` (expressions.rs 826, 851, 869, 898). -/
def isFps (l : Lexeme) : Bool := l.tok == some .id && l.text == fps

/-- `parse_primitive_value` (expressions.rs 793-831) without `already_called`. -/
def parsePrimitive (L : Lib) (s : Str) : Res (Value × Str) :=
  (nextOr L s).bind fun l =>
    if isFps l then fromProviderState L l.rest else parseLiteral L l

/-- Result of `parse_matching_rule`: value, type, rule, generator, reference (expressions.rs 610). -/
structure Parts where
  value : Str
  valueType : ValueType
  rule : Option MatchingRule
  generator : Option Generator
  reference : Option MatchingReference

/-- A value with the rule it is the example of. -/
def withRule (m : MatchingRule) : Value × Str → Parts × Str
  | ((v, ty, g), s) => (⟨v, ty, some m, g, none⟩, s)

/-- `parse_equality`, `parse_type` (expressions.rs 686-693, 705-712). -/
def parseAny (L : Lib) (m : MatchingRule) (s : Str) : Res (Parts × Str) :=
  (parseComma L s).bind fun s => (parsePrimitive L s).map (withRule m)

/-- `parse_regex`, `parse_content_type` (expressions.rs 696-702, 773-779). -/
def parseConfigured (L : Lib) (m : Str → MatchingRule) (ty : ValueType) (s : Str) : Res (Parts × Str) :=
  (parseComma L s).bind fun s =>
  (parseString L s).bind fun (c, s) =>
  (parseComma L s).bind fun s =>
  (parseString L s).map fun (v, s) => (⟨v, ty, some (m c), none, none⟩, s)

/-- `str::trim_start` and `starts_with("fromProviderState")` (expressions.rs 720-721, 737-738, 754-755). -/
def fpsAhead (L : Lib) (s : Str) : Bool := fps.isPrefixOf (s.dropWhile L.uc.white)

/-- The value of `parse_datetime`, `parse_date`, `parse_time` (expressions.rs 720-726): a provider state
expression after whatever token comes next, or a string. -/
def parseTimed (L : Lib) (g : Generator) (s : Str) : Res (Value × Str) :=
  if fpsAhead L s then
    fromProviderState L (match next L s with | some l => l.rest | none => [])
  else (parseString L s).map fun (v, s) => ((v, .string, some g), s)

/-- `parse_datetime`, `parse_date`, `parse_time` (expressions.rs 715-763). -/
def parseTime (L : Lib) (m : Str → MatchingRule) (g : Str → Generator) (s : Str) : Res (Parts × Str) :=
  (parseComma L s).bind fun s =>
  (parseString L s).bind fun (f, s) =>
  (parseComma L s).bind fun s =>
  (parseTimed L (g f) s).map (withRule (m f))

/-- `parse_include` (expressions.rs 766-770). -/
def parseInclude (L : Lib) (s : Str) : Res (Parts × Str) :=
  (parseComma L s).bind fun s =>
  (parseString L s).map fun (v, s) => (⟨v, .string, some (.includes v), none, none⟩, s)

/-- `parse_semver` (expressions.rs 664-683). -/
def parseSemver (L : Lib) (s : Str) : Res (Parts × Str) :=
  (parseComma L s).bind fun s =>
  (parseString L s).bind fun (v, s) =>
    if L.semver v then .ok (⟨v, .string, some .semver, none, none⟩, s) else .err

/-- `parse_number` (expressions.rs 835-860). -/
def parseNumber (L : Lib) (s : Str) : Res (Parts × Str) :=
  (parseComma L s).bind fun s =>
  (nextOr L s).bind fun l =>
    match l.tok with
    | some .decimal => .ok (⟨l.text, .number, some .number, none, none⟩, l.rest)
    | some .int => (wholeOr L .number .number l.text l.rest).map (withRule .number)
    | some .num => (wholeOr L .number .number l.text l.rest).map (withRule .number)
    | _ => if isFps l then (fromProviderState L l.rest).map (withRule .number) else .err

/-- `parse_integer` (expressions.rs 863-878). -/
def parseInteger (L : Lib) (s : Str) : Res (Parts × Str) :=
  (parseComma L s).bind fun s =>
  (nextOr L s).bind fun l =>
    match l.tok with
    | some .int => .ok (⟨l.text, .integer, some .integer, none, none⟩, l.rest)
    | some .num => .ok (⟨l.text, .integer, some .integer, none, none⟩, l.rest)
    | _ => if isFps l then (fromProviderState L l.rest).map (withRule .integer) else .err

/-- `parse_decimal` (expressions.rs 882-907); with a provider state expression the rule is `Number` (900). -/
def parseDecimal (L : Lib) (s : Str) : Res (Parts × Str) :=
  (parseComma L s).bind fun s =>
  (nextOr L s).bind fun l =>
    match l.tok with
    | some .int => (wholeOr L .decimal .decimal l.text l.rest).map (withRule .decimal)
    | some .num => (wholeOr L .decimal .decimal l.text l.rest).map (withRule .decimal)
    | some .decimal => .ok (⟨l.text, .decimal, some .decimal, none, none⟩, l.rest)
    | _ => if isFps l then (fromProviderState L l.rest).map (withRule .number) else .err

/-- `parse_boolean` (expressions.rs 910-918). -/
def parseBoolean (L : Lib) (s : Str) : Res (Parts × Str) :=
  (parseComma L s).bind fun s =>
  (expect L .boolean s).map fun (t, s) => (⟨t, .boolean, some .boolean, none, none⟩, s)

/-- `parse_reference` (expressions.rs 658-661). -/
def parseReference (L : Lib) (s : Str) : Res (Parts × Str) :=
  (parseString L s).map fun (n, s) => (⟨n, .unknown, none, none, some ⟨n⟩⟩, s)

/-- The types of matchers (expressions.rs 614-628). -/
def matchers (L : Lib) : List (Str × (Str → Res (Parts × Str))) :=
  [("equalTo".toList, parseAny L .equality),
   ("regex".toList, parseConfigured L .regex .string),
   ("type".toList, parseAny L .type),
   ("datetime".toList, parseTime L .timestamp fun f => .dateTime (some f) none),
   ("date".toList, parseTime L .date fun f => .date (some f) none),
   ("time".toList, parseTime L .time fun f => .time (some f) none),
   ("include".toList, parseInclude L),
   ("number".toList, parseNumber L),
   ("integer".toList, parseInteger L),
   ("decimal".toList, parseDecimal L),
   ("boolean".toList, parseBoolean L),
   ("contentType".toList, parseConfigured L .contentType .unknown),
   ("semver".toList, parseSemver L)]

/-- `parse_matching_rule` (expressions.rs 610-656). -/
def parseRule (L : Lib) (s : Str) : Res (Parts × Str) :=
  (nextOr L s).bind fun l =>
    match l.tok with
    | some .id => match Json.lookup l.text (matchers L) with
      | some f => f l.rest
      | none => .err
    | some .dollar => parseReference L l.rest
    | _ => .err

/-- Something between brackets (`parse_matching`, `parse_not_empty`, `parse_each_value`, `parse_each_key`,
`parse_length_param`; expressions.rs 470-588, 1061-1078). -/
def bracketed {α : Type} (L : Lib) (p : Str → Res (α × Str)) (s : Str) : Res (α × Str) :=
  (expect L .leftBracket s).bind fun (_, s) =>
  (p s).bind fun (a, s) =>
  (expect L .rightBracket s).map fun (_, s) => (a, s)

/-- The definition for the result of `parse_matching` (expressions.rs 386-403); `matching_rule.unwrap()` panics
when there is neither a rule nor a reference. -/
def ofParts (v : Str) (p : Parts) : Res RuleDef :=
  match p.reference with
  | some r => .ok ⟨p.value, .unknown, [.inr r], p.generator, v⟩
  | none => match p.rule with
    | some m => .ok ⟨p.value, p.valueType, [.inl m], p.generator, v⟩
    | none => .panic

/-- The length of `atLeast` and `atMost` (expressions.rs 1064-1065). -/
def parseLength (L : Lib) (s : Str) : Res (Nat × Str) :=
  (expect L .num s).bind fun (t, s) => match parseDigits usizeLim t with
    | some n => .ok (n, s)
    | none => .err

/-- A definition with one rule (expressions.rs 412-448). -/
def one (v : Str) (m : MatchingRule) : RuleDef := ⟨[], .unknown, [.inl m], none, v⟩

/-- `matching_definition_exp` (expressions.rs 382-463), `parse_each_value`, `parse_each_key` (470-553).  The first
argument bounds the nesting; every nested expression is shorter. -/
def exp (L : Lib) (v : Str) : Nat → Str → Res (RuleDef × Str)
  | 0, _ => .err
  | n + 1, s =>
    (nextOr L s).bind fun l =>
      match l.tok with
      | some .matching => (bracketed L (parseRule L) l.rest).bind fun (p, s) =>
          (ofParts v p).map fun d => (d, s)
      | some .notEmpty => (bracketed L (parsePrimitive L) l.rest).map fun ((x, ty, g), s) =>
          (⟨x, ty, [.inl .notEmpty], g, v⟩, s)
      | some .eachKey => (bracketed L (exp L v n) l.rest).map fun (d, s) => (one v (.eachKey d), s)
      | some .eachValue => (bracketed L (exp L v n) l.rest).map fun (d, s) => (one v (.eachValue d), s)
      | some .atLeast => (bracketed L (parseLength L) l.rest).map fun (k, s) => (one v (.minType k), s)
      | some .atMost => (bracketed L (parseLength L) l.rest).map fun (k, s) => (one v (.maxType k), s)
      | _ => .err

/-- `ValueType::merge` (expressions.rs 141-171). -/
def mergeType (a b : ValueType) : ValueType :=
  match a, b with
  | .string, .string => .string
  | .number, .number => .number
  | .number, .boolean => .number
  | .number, .unknown => .number
  | .number, .integer => .integer
  | .number, .decimal => .decimal
  | .number, .string => .string
  | .integer, .number => .integer
  | .integer, .boolean => .integer
  | .integer, .unknown => .integer
  | .integer, .integer => .integer
  | .integer, .decimal => .decimal
  | .integer, .string => .string
  | .decimal, .number => .decimal
  | .decimal, .boolean => .decimal
  | .decimal, .unknown => .decimal
  | .decimal, .integer => .decimal
  | .decimal, .decimal => .decimal
  | .decimal, .string => .string
  | .boolean, .number => .number
  | .boolean, .integer => .integer
  | .boolean, .decimal => .decimal
  | .boolean, .unknown => .boolean
  | .boolean, .string => .string
  | .boolean, .boolean => .boolean
  | .string, _ => .string
  | _, b => b

/-- The expression of merged definitions (expressions.rs 241-247). -/
def mergeText (a b : Str) : Str :=
  if a.isEmpty then b
  else if b.isEmpty || a == b then a
  else a ++ ", ".toList ++ b

/-- `MatchingRuleDefinition::merge` (expressions.rs 224-249). -/
def merge (a b : RuleDef) : RuleDef :=
  { value := if a.value.isEmpty then b.value else a.value
    valueType := mergeType a.valueType b.valueType
    rules := a.rules ++ b.rules
    generator := match a.generator with | some g => some g | none => b.generator
    expression := mergeText a.expression b.expression }

/-- The loop of `matching_definition` and the check of the remainder (expressions.rs 356-370).  The first
argument bounds the number of expressions. -/
def moreExps (L : Lib) (v : Str) : Nat → RuleDef → Str → Res RuleDef
  | 0, _, _ => .err
  | n + 1, d, s =>
    match next L s with
    | none => .ok d
    | some l => match l.tok with
      | none => if l.rest.isEmpty then .ok d else .err
      | some .comma => (exp L v (l.rest.length + 1) l.rest).bind fun (e, s) => moreExps L v n (merge d e) s
      | some _ => .err

/-- `parse_matcher_def` (expressions.rs 321-328) and `matching_definition` (354-370). -/
def parse (L : Lib) (v : Str) : Res RuleDef :=
  if v.isEmpty then .err
  else (exp L v (v.length + 1) v).bind fun (d, s) => moreExps L v (v.length + 1) d s

/-- `is_matcher_def` (expressions.rs 332-349). -/
def isDefinition (L : Lib) (v : Str) : Bool :=
  if v.isEmpty then false
  else match next L v with
    | some l => match l.tok with
      | some .matching => true
      | some .notEmpty => true
      | some .eachKey => true
      | some .eachValue => true
      | _ => false
    | none => false

end DefExpr
end Verif
