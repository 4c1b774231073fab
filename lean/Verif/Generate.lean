import Verif.RuleJson
import Verif.Matchers

/-
  Model of the tables of generators and of the generation of random values:
  rust/pact_models/src/generators/mod.rs 243-325 (`name`, `values`, `create`), 408-461 (`GeneratorCategory`), 512-678
  (`Generators`), 786-820 (`generate_decimal`, `generate_hexadecimal`), 822-849 (`GenerateValue<u16>`), 851-859
  (`generate_ascii_string`, `strip_anchors`), 878-895, 1029-1060 (`GenerateValue<String>` and `<Value>`, the random
  generators).
-/

set_option autoImplicit false

namespace Verif
namespace Generate
open Rules RuleJson

/-! ### Tables of generators -/

/-- `enum GeneratorCategory` (generators/mod.rs 408-423). -/
inductive GenCategory where
  | method | path | header | query | body | status | metadata
deriving DecidableEq, Repr

/-- `struct Generators` (generators/mod.rs 512-515). -/
abbrev Generators := List (GenCategory × List (DocPath × Generator))

/-- `Into<&str> for GeneratorCategory` (generators/mod.rs 442-454). -/
def genCatName : GenCategory → Str
  | .method => "method".toList
  | .path => "path".toList
  | .header => "header".toList
  | .query => "query".toList
  | .body => "body".toList
  | .status => "status".toList
  | .metadata => "metadata".toList

/-- `FromStr for GeneratorCategory` (generators/mod.rs 425-440). -/
def genCatParse (uc : UC) (s : Str) : Option GenCategory :=
  Json.lookup (uc.lower s) [("method".toList, .method), ("path".toList, .path), ("header".toList, .header),
    ("query".toList, .query), ("body".toList, .body), ("status".toList, .status), ("metadata".toList, .metadata)]

/-- The categories with a single generator (generators/mod.rs 535, 585). -/
def single : GenCategory → Bool
  | .path | .method | .status => true
  | _ => false

/-- The categories keyed by names (generators/mod.rs 541, 596). -/
def named : GenCategory → Bool
  | .query | .header => true
  | _ => false

/-- `add_generator_with_subcategory` (generators/mod.rs 630-638). -/
def addGen : Generators → GenCategory → DocPath → Generator → Generators
  | [], c, p, g => [(c, [(p, g)])]
  | (d, m) :: r, c, p, g => if d = c then (d, insertGen m p g) :: r else (d, m) :: addGen r c p g

/-- `parse_generator_from_map` (generators/mod.rs 559-578). -/
def addFromObj (gs : Generators) (c : GenCategory) (p : DocPath) (m : Obj) : Generators :=
  match genOfObj m with
  | some g => addGen gs c p g
  | none => gs

/-- The loop over the keys of a category (generators/mod.rs 538-550). -/
def loadKeys (P : Params) (c : GenCategory) : Generators → Obj → Res Generators
  | gs, [] => .ok gs
  | gs, (k, .obj m) :: es =>
      (if named c then Res.ok (Path.pushField Path.rootPath k) else Path.new P.uc k).bind fun p =>
        loadKeys P c (addFromObj gs c p m) es
  | gs, _ :: es => loadKeys P c gs es

/-- `load_from_map` (generators/mod.rs 529-557). -/
def loadGens (P : Params) : Generators → Obj → Res Generators
  | gs, [] => .ok gs
  | gs, (k, .obj m) :: es =>
    match genCatParse P.uc k with
    | some c => (if single c then Res.ok (addFromObj gs c Path.empty m) else loadKeys P c gs m).bind fun gs =>
        loadGens P gs es
    | none => loadGens P gs es
  | gs, _ :: es => loadGens P gs es

/-- The key of a generator in the JSON form (generators/mod.rs 602-603, 614). -/
def genKeyText (c : GenCategory) (p : DocPath) : Str :=
  if named c then (Path.firstField p).getD p.expr else p.expr

/-- The JSON form of one category (generators/mod.rs 584-619). -/
def genCatJson (c : GenCategory) (m : List (DocPath × Generator)) : Option Json :=
  if single c then
    ((Rules.lookup m Path.empty).or (Rules.lookup m Path.rootPath)).map genToJson
  else some (.obj (OMap.collect (m.map fun e => (genKeyText c e.1, genToJson e.2))))

/-- `Generators::to_json` (generators/mod.rs 580-622). -/
def generatorsToJson (gs : Generators) : Json :=
  .obj (OMap.collect (gs.filterMap fun e => (genCatJson e.1 e.2).map fun j => (genCatName e.1, j)))

/-- `impl PartialEq for Generators` (generators/mod.rs 666-678): the non-empty categories, in order, are compared;
each category occurs once. -/
def gensEq (m n : Generators) : Bool :=
  let m' := m.filter fun e => !e.2.isEmpty
  let n' := n.filter fun e => !e.2.isEmpty
  decide (m'.length = n'.length) &&
    m'.all fun e => match n'.find? (fun f => decide (f.1 = e.1)) with
      | some t => mapEq (fun a b => decide (a = b)) e.2 t.2
      | none => false

/-! ### Generators from their name and values -/

/-- `Generator::name` (generators/mod.rs 243-259). -/
def genName : Generator → String
  | .randomInt _ _ => "RandomInt"
  | .uuid _ => "Uuid"
  | .randomDecimal _ => "RandomDecimal"
  | .randomHexadecimal _ => "RandomHexadecimal"
  | .randomString _ => "RandomString"
  | .regex _ => "Regex"
  | .date _ _ => "Date"
  | .time _ _ => "Time"
  | .dateTime _ _ => "DateTime"
  | .randomBoolean => "RandomBoolean"
  | .providerState _ _ => "ProviderState"
  | .mockServerURL _ _ => "MockServerURL"

/-- `Generator::values` (generators/mod.rs 262-316) as an object. -/
def genValues : Generator → List (String × Json)
  | .randomInt min max => [("min", Expr.intJson min), ("max", Expr.intJson max)]
  | .uuid (some f) => [("format", .str (uuidText f))]
  | .uuid none => []
  | .randomDecimal d => [("digits", .num (.pos d))]
  | .randomHexadecimal d => [("digits", .num (.pos d))]
  | .randomString d => [("digits", .num (.pos d))]
  | .regex r => [("regex", .str r)]
  | .date f e => optAttr "format" f ++ optAttr "expression" e
  | .time f e => optAttr "format" f ++ optAttr "expression" e
  | .dateTime f e => optAttr "format" f ++ optAttr "expression" e
  | .randomBoolean => []
  | .providerState e (some d) => [("expression", .str e), ("data_type", .str (dataTypeText d))]
  | .providerState e none => [("expression", .str e)]
  | .mockServerURL x r => [("example", .str x), ("regex", .str r)]

/-- `Generator::create(g.name(), g.values())` (generators/mod.rs 319-325). -/
def genRecreate (g : Generator) : Option Generator :=
  genFromMap (genName g).toList (OMap.collect ((genValues g).map fun e => (e.1.toList, e.2)))

/-! ### Random values -/

/-- The random number generator: `pick n lo hi` is the `n`-th draw, of a number in a range that is not empty;
`sample k n` is a draw of `k` different positions out of `n` (fewer if there are not so many), as
`IteratorRandom::choose_multiple` of the crate `rand` makes it; `hex n` are the 32 hexadecimal digits of a UUID. -/
structure Rng where
  pick : Nat → Int → Int → Int
  pick_range : ∀ n lo hi, lo < hi → lo ≤ pick n lo hi ∧ pick n lo hi < hi
  sample : Nat → Nat → List Nat
  sample_length : ∀ k n, (sample k n).length = Nat.min k n
  sample_nodup : ∀ k n, (sample k n).Nodup
  sample_range : ∀ k n, ∀ i ∈ sample k n, i < n
  hex : Str
  hex_length : hex.length = 32
  hex_digits : ∀ c ∈ hex, c ∈ "0123456789abcdef".toList

/-- `gen_range(lo..hi)`: panics on an empty range. -/
def genRange (g : Rng) (n : Nat) (lo hi : Int) : Res Int := if lo < hi then .ok (g.pick n lo hi) else .panic

/-- `i32::saturating_add(1)`. -/
def satAdd (a : Int) : Int := if a = 2147483647 then a else a + 1

/-- `gen_range(*min..max.saturating_add(1))` (generators/mod.rs 885, 1046). -/
def randomInt (g : Rng) (min max : Int) : Res Int := genRange g 0 min (satAdd max)

/-- `min as u16`. -/
def asU16 (a : Int) : Int := a % 65536
/-- `u16::saturating_add(1)`. -/
def satAddU16 (a : Int) : Int := if a = 65535 then a else a + 1

/-- `gen_range(min as u16..(max as u16).saturating_add(1))` (generators/mod.rs 830), used for status codes. -/
def randomU16 (g : Rng) (min max : Int) : Res Int := genRange g 0 (asU16 min) (satAddU16 (asU16 max))

/-- `format!("{}", i)`. -/
def intText : Int → Str
  | .ofNat n => natStr n
  | .negSucc n => '-' :: natStr (n + 1)

/-- `RandomInt` for a JSON value (generators/mod.rs 1045-1052). -/
def randomIntJson (g : Rng) (min max : Int) (v : Json) : Res Json :=
  (randomInt g min max).map fun i => match v with
    | .str _ => .str (intText i)
    | _ => Expr.intJson i

/-- `chars.choose(&mut rnd).unwrap()` for the ten digits. -/
def digit (g : Rng) (n : Nat) : Char := digitChar (g.pick n 0 10).toNat
/-- The same without 0 (generators/mod.rs 798-800). -/
def nonZero (g : Rng) (n : Nat) : Char := digitChar (g.pick n 1 10).toNat

/-- `generate_decimal` (generators/mod.rs 786-814).  All characters are ASCII, so byte and character positions
coincide. -/
def generateDecimal (g : Rng) (digits : Nat) : Res Str :=
  match digits with
  | 0 => .ok []
  | 1 => .ok [digit g 0]
  | 2 => .ok [digit g 0, '.', digit g 1]
  | n + 3 =>
    let digits := n + 3
    let sample := (List.range (digits + 1)).map (digit g)
    let sample := if "00".toList.isPrefixOf sample then nonZero g (digits + 1) :: sample else sample
    (genRange g (digits + 2) 1 (digits - 1 : Nat)).map fun p =>
      let pos := p.toNat
      let selected := if pos ≠ 1 ∧ "0".toList.isPrefixOf sample = true then (sample.drop 1).take digits
        else sample.take digits
      selected.take pos ++ '.' :: selected.drop pos

/-- `generate_hexadecimal` (generators/mod.rs 817-820). -/
def generateHexadecimal (g : Rng) (digits : Nat) : Str :=
  (g.sample digits 16).map fun i => ("0123456789ABCDEF".toList.getD i '?')

/-- The characters of `Alphanumeric` of the crate `rand`. -/
def alphanumeric : Str := "ABCDEFGHIJKLMNOPQRSTUVWXYZabcdefghijklmnopqrstuvwxyz0123456789".toList

/-- `generate_ascii_string` (generators/mod.rs 851-853). -/
def generateString (g : Rng) (size : Nat) : Str :=
  (List.range size).map fun n => alphanumeric.getD (g.pick n 0 62).toNat '?'

/-- `as_hyphenated`. -/
def hyphenated (h : Str) : Str :=
  h.take 8 ++ '-' :: (h.drop 8).take 4 ++ '-' :: (h.drop 12).take 4 ++ '-' :: (h.drop 16).take 4 ++ '-' :: h.drop 20

/-- `Uuid` (generators/mod.rs 886-891); without a format the hyphenated one is the default (98-102). -/
def generateUuid (g : Rng) (f : Option UuidFormat) : Str :=
  match f.getD .lowerHyphen with
  | .simple => g.hex
  | .lowerHyphen => hyphenated g.hex
  | .upperHyphen => (hyphenated g.hex).map Char.toUpper
  | .urn => "urn:uuid:".toList ++ hyphenated g.hex

/-- `strip_anchors` (generators/mod.rs 855-859). -/
def stripAnchors (re : Str) : Str :=
  let a := match re with
    | '^' :: r => r
    | _ => re
  match a.getLast? with
  | some '$' => a.dropLast
  | _ => re

end Generate
end Verif
