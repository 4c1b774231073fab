import Verif.JsonUtils

/-
  Model of rust/pact_models/src/expression_parser.rs: substitution of `${name}` expressions (364-407) and the
  conversion of the resulting value to a data type (85-152).

  Rust indexes strings by byte; every index used here is the position of an ASCII character, so character
  positions select the same pieces.
-/

set_option autoImplicit false

namespace Verif
namespace Expr

/-- `buffer.find("${")`. -/
def findOpen : Str → Option Nat
  | [] => none
  | c :: cs => if c = '$' ∧ cs.head? = some '{' then some 0 else (findOpen cs).map (· + 1)

/-- `buffer.find('}')`. -/
def findClose : Str → Option Nat
  | [] => none
  | c :: cs => if c = '}' then some 0 else (findClose cs).map (· + 1)

/-- `pub fn contains_expressions` (expression_parser.rs 364-366). -/
def containsExpressions (value : Str) : Bool := (findOpen value).isSome

/-- One evaluation of `if index > 0 { result.push(json!(&buffer[0..index])) }` (expression_parser.rs 382-384). -/
def pushText (result : List Json) (t : Str) : List Json := if t.isEmpty then result else result ++ [.str t]

/-- The loop of `replace_expressions` (expression_parser.rs 378-397).  `end_position - index` underflows when
the brace comes first: a panic with overflow checks; without them the difference wraps to a huge number and
the slice `buffer[(index + 2)..end_position]` panics.  The first argument bounds the number of iterations;
every iteration shortens the buffer, so the length of the string is enough. -/
def loop (resolve : Str → Option Json) : Nat → Str → List Json → Res (List Json × Str)
  | 0, buffer, result => .ok (result, buffer)
  | fuel + 1, buffer, result =>
    match findOpen buffer with
    | none => .ok (result, buffer)
    | some index =>
      let result := pushText result (buffer.take index)
      match findClose buffer with
      | none => .err
      | some end_ =>
        if end_ < index then .panic
        else if end_ - index > 2 then
          match resolve ((buffer.take end_).drop (index + 2)) with
          | some v => loop resolve fuel (buffer.drop (end_ + 1)) (result ++ [v])
          | none => .err
        else loop resolve fuel (buffer.drop (end_ + 1)) result

/-- `fn replace_expressions` (expression_parser.rs 377-407). -/
def replaceExpressions (resolve : Str → Option Json) (value : Str) : Res Json :=
  (loop resolve (value.length + 1) value []).map fun (result, buffer) =>
    match pushText result buffer with
    | [v] => v
    | vs => .str (vs.flatMap Json.toStr)

/-- `pub fn parse_expression` (expression_parser.rs 369-375). -/
def parseExpression (resolve : Str → Option Json) (value : Str) : Res Json :=
  if containsExpressions value then replaceExpressions resolve value else .ok (.str value)

/-! ### Data types -/

/-- Operations on `f64` used by `DataValue::as_json`; floating point is not modelled, so they are parameters:
truncation to `i64`, conversion from an integer, the sign test, and parsing
(`json!(val)` of the parsed number: `null` when it is not finite). -/
structure F64 where
  toI64 : Str → Int
  ofInt : Int → Str
  positive : Str → Bool
  parse : Str → Option Json

/-- `json!(n)` for an `i64`. -/
def intJson (i : Int) : Json :=
  match i with
  | .ofNat n => .num (.pos n)
  | .negSucc n => .num (.neg n)

/-- `s.parse::<bool>()`. -/
def parseBool (s : Str) : Option Bool :=
  if s = ['t', 'r', 'u', 'e'] then some true
  else if s = ['f', 'a', 'l', 's', 'e'] then some false
  else none

/-- Integer value of a number that is not a float. -/
def numInt : Num → Int
  | .pos n => n
  | .neg n => .negSucc n
  | .flt _ => 0

/-- `Ok` for a value, `Err` for none. -/
def okOr {A : Type} : Option A → Res A
  | some a => .ok a
  | none => .err

/-- `DataValue::as_json` (expression_parser.rs 87-151). -/
def asJson (f : F64) : DataType → Json → Res Json
  | .string, .str s => .ok (.str s)
  | .string, v => .ok (.str v.text)
  | .integer, .null => .ok (.num (.pos 0))
  | .integer, .bool b => .ok (.num (.pos (if b then 1 else 0)))
  | .integer, .num (.flt r) => .ok (intJson (f.toI64 r))
  | .integer, .num n => .ok (.num n)
  | .integer, .str s => okOr ((parseUsize s).map fun n => .num (.pos n))
  | .integer, _ => .err
  | .float, v => toFloat f v
  | .decimal, v => toFloat f v
  | .raw, v => .ok v
  | .boolean, .null => .ok (.bool false)
  | .boolean, .bool b => .ok (.bool b)
  | .boolean, .num (.pos n) => .ok (.bool (decide (n > 0)))
  | .boolean, .num (.neg _) => .ok (.bool false)
  | .boolean, .num (.flt r) => .ok (.bool (f.positive r))
  | .boolean, .str s => okOr ((parseBool s).map .bool)
  | .boolean, _ => .err
where
  /-- The arm `FLOAT | DECIMAL` (expression_parser.rs 113-132). -/
  toFloat (f : F64) : Json → Res Json
  | .null => .ok (.num (.flt (f.ofInt 0)))
  | .bool b => .ok (.num (.flt (f.ofInt (if b then 1 else 0))))
  | .num (.flt r) => .ok (.num (.flt r))
  | .num n => .ok (.num (.flt (f.ofInt (numInt n))))
  | .str s => okOr (f.parse s)
  | _ => .err

end Expr
end Verif
