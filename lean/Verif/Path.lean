import Verif.Base

/-
  Model of `rust/pact_models/src/path_exp.rs` (lines 1-735, everything but the serde glue).
-/

namespace Verif

/-- `enum PathToken` (path_exp.rs 27-39).  `Index(usize)` is a `Nat`; statements that depend on the
machine width carry the hypothesis `n < usizeLim`. -/
inductive PathToken where
  | root
  | field (name : Str)
  | index (i : Nat)
  | star
  | starIndex
deriving Repr, DecidableEq

/-- `struct DocPath` (path_exp.rs 87-90). -/
structure DocPath where
  tokens : List PathToken
  expr : Str
deriving Repr, DecidableEq

namespace Path

/-- `impl Display for PathToken` (path_exp.rs 51-61). -/
def tokenString : PathToken → Str
  | .root => ['$']
  | .field n => n
  | .index i => natStr i
  | .star => ['*']
  | .starIndex => ['[', '*', ']']

/-- `fn matches_token` (path_exp.rs 63-82). -/
def matchesToken (frag : Str) : PathToken → Nat
  | .root => if frag = ['$'] then 2 else 0
  | .field name => if frag = name then 2 else 0
  | .index i => match parseUsize frag with
    | some n => if i = n then 2 else 0
    | none => 0
  | .starIndex => if frag = ['[', '*', ']'] then 1 else
    match parseUsize frag with
    | some _ => 1
    | none => 0
  | .star => 1

/-- The fold in `path_weight` (path_exp.rs 197-198): product of the token weights over the zipped
lists, in `usize` arithmetic (release build: wraps modulo 2^64; a debug build panics instead of
wrapping, which is the same set of inputs on which the unbounded product reaches 2^64). -/
def weightFold : Nat → List PathToken → List Str → Nat
  | acc, t :: ts, f :: fs => weightFold (acc * matchesToken f t % usizeLim) ts fs
  | acc, _, _ => acc

/-- `DocPath::path_weight` (path_exp.rs 191-208). -/
def pathWeight (ts : List PathToken) (path : List Str) : Nat × Nat :=
  if path.length ≥ ts.length then (weightFold 1 ts path, ts.length) else (0, ts.length)

/-- `DocPath::matches_path` (path_exp.rs 212-214). -/
def matchesPath (ts : List PathToken) (path : List Str) : Bool :=
  decide ((pathWeight ts path).1 > 0)

/-- `DocPath::matches_path_exactly` (path_exp.rs 218-220). -/
def matchesPathExactly (ts : List PathToken) (path : List Str) : Bool :=
  decide (ts.length = path.length) && matchesPath ts path

/-! ### Printing -/

/-- First character class of the `IDENT` regex `^[_A-Za-z][_A-Za-z0-9]*$` (path_exp.rs 18). -/
def identStart (c : Char) : Bool := c == '_' || c.isAlpha
/-- Following characters of the `IDENT` regex (path_exp.rs 18). -/
def identRest (c : Char) : Bool := c == '_' || c.isAlpha || c.isDigit

/-- `IDENT.is_match(key)` (path_exp.rs 18, 454). -/
def isIdent : Str → Bool
  | [] => false
  | c :: cs => identStart c && cs.all identRest

/-- `ESCAPE.replace_all(key, "\\$0")`: a backslash before each `\` and `'` (path_exp.rs 21, 460). -/
def escapeKey : Str → Str
  | [] => []
  | c :: cs => if c = '\\' ∨ c = '\'' then '\\' :: c :: escapeKey cs else c :: escapeKey cs

/-- `fn write_obj_key_for_path` (path_exp.rs 452-463): the text appended for a key. -/
def objKey (key : Str) : Str :=
  if isIdent key then '.' :: key else '[' :: '\'' :: (escapeKey key ++ ['\'', ']'])

/-- Text written for one token by `build_expr`/`push`/`push_*` (path_exp.rs 282-325, 359-384). -/
def tokenExpr : PathToken → Str
  | .root => ['$']
  | .field v => objKey v
  | .index i => '[' :: (natStr i ++ [']'])
  | .star => ['.', '*']
  | .starIndex => ['[', '*', ']']

/-- `DocPath::build_expr` (path_exp.rs 359-384). -/
def buildExpr : List PathToken → Str
  | [] => []
  | t :: ts => tokenExpr t ++ buildExpr ts

/-! ### Constructors and algebra -/

/-- `DocPath::empty` (path_exp.rs 117-122). -/
def empty : DocPath := ⟨[], []⟩
/-- `DocPath::root` (path_exp.rs 125-130). -/
def rootPath : DocPath := ⟨[.root], ['$']⟩
/-- `DocPath::from_tokens` (path_exp.rs 133-141). -/
def fromTokens (ts : List PathToken) : DocPath := ⟨ts, buildExpr ts⟩

/-- `DocPath::push` (path_exp.rs 312-325). -/
def push (p : DocPath) (t : PathToken) : DocPath := ⟨p.tokens ++ [t], p.expr ++ tokenExpr t⟩
/-- `DocPath::push_field` (path_exp.rs 282-287). -/
def pushField (p : DocPath) (k : Str) : DocPath := ⟨p.tokens ++ [.field k], p.expr ++ objKey k⟩
/-- `DocPath::push_index` (path_exp.rs 290-295). -/
def pushIndex (p : DocPath) (i : Nat) : DocPath :=
  ⟨p.tokens ++ [.index i], p.expr ++ ('[' :: (natStr i ++ [']']))⟩
/-- `DocPath::push_star` (path_exp.rs 298-302). -/
def pushStar (p : DocPath) : DocPath := ⟨p.tokens ++ [.star], p.expr ++ ['.', '*']⟩
/-- `DocPath::push_star_index` (path_exp.rs 305-309). -/
def pushStarIndex (p : DocPath) : DocPath := ⟨p.tokens ++ [.starIndex], p.expr ++ ['[', '*', ']']⟩

/-- `DocPath::push_path` (path_exp.rs 329-336): pushes the non-root tokens of the other path. -/
def pushPath (p : DocPath) (q : DocPath) : DocPath :=
  q.tokens.foldl (fun acc t => if t = .root then acc else push acc t) p

/-- `DocPath::join` (path_exp.rs 223-236). -/
def join (p : DocPath) (part : Str) : DocPath :=
  if part = ['*'] then pushStar p
  else if part = ['[', '*', ']'] then pushStarIndex p
  else match parseUsize part with
    | some i => pushIndex p i
    | none => pushField p part

/-- `DocPath::join_index` (path_exp.rs 240-257). -/
def joinIndex (p : DocPath) (i : Nat) : DocPath :=
  match p.tokens.getLast? with
  | some .star | some .starIndex => fromTokens (p.tokens.dropLast ++ [.index i])
  | _ => pushIndex p i

/-- `DocPath::join_field` (path_exp.rs 261-279). -/
def joinField (p : DocPath) (k : Str) : DocPath :=
  match p.tokens.getLast? with
  | some .star => fromTokens (p.tokens.dropLast ++ [.field k])
  | _ => pushField p k

/-- `DocPath::to_vec` (path_exp.rs 339-341). -/
def toVec (p : DocPath) : List Str := p.tokens.map tokenString

/-- `DocPath::parent` (path_exp.rs 344-357). -/
def parent (p : DocPath) : Option DocPath :=
  if p.tokens.length ≤ 1 then none else some (fromTokens p.tokens.dropLast)

/-- `DocPath::drop` (path_exp.rs 431-446). -/
def drop (p : DocPath) (n : Nat) : DocPath :=
  let v := p.tokens.take (p.tokens.length - n)
  if v.isEmpty then rootPath else fromTokens v

/-- `DocPath::is_root` (path_exp.rs 180-182). -/
def isRoot (p : DocPath) : Bool := decide (p.tokens = [.root])

/-- `DocPath::is_wildcard` (path_exp.rs 185-187). -/
def isWildcard (p : DocPath) : Bool := decide (p.tokens.getLast? = some .star)

/-- `DocPath::first_field` (path_exp.rs 160-167). -/
def firstField (p : DocPath) : Option Str :=
  p.tokens.findSome? fun | .field f => some f | _ => none

/-- `DocPath::to_lower_case` (path_exp.rs 387-395). -/
def toLowerCase (uc : UC) (p : DocPath) : DocPath :=
  ⟨p.tokens.map fun | .field f => .field (uc.lower f) | t => t, uc.lower p.expr⟩

/-- `v.replace('~', "~0").replace('/', "~1")` (path_exp.rs 405-406). -/
def pointerEscape (v : Str) : Str :=
  (v.flatMap fun c => if c = '~' then ['~', '0'] else [c]).flatMap
    fun c => if c = '/' then ['~', '1'] else [c]

/-- `DocPath::as_json_pointer` (path_exp.rs 398-423). -/
def asJsonPointerT : List PathToken → Option Str
  | [] => some []
  | .root :: ts => asJsonPointerT ts
  | .field v :: ts => (asJsonPointerT ts).map (fun r => '/' :: (pointerEscape v ++ r))
  | .index i :: ts => (asJsonPointerT ts).map (fun r => '/' :: (natStr i ++ r))
  | .star :: _ => none
  | .starIndex :: _ => none

/-- `DocPath::as_json_pointer` on a path (path_exp.rs 398-423). -/
def asJsonPointer (p : DocPath) : Option Str := asJsonPointerT p.tokens

/-- `impl PartialEq for DocPath` (path_exp.rs 514-518): by expression string only. -/
def eqPath (p q : DocPath) : Bool := decide (p.expr = q.expr)

/-! ### Parsing (error texts and character positions, used only in error texts, are dropped) -/

/-- `fn is_identifier_char` (path_exp.rs 548-550). -/
def isIdentifierChar (uc : UC) (c : Char) : Bool :=
  uc.alphabetic c || uc.numeric c || c == '_' || c == '-' || c == ':' || c == '#' || c == '@'

/-- The loop of `fn identifier` (path_exp.rs 553-573): the rest of the identifier and what follows. -/
def identLoop (uc : UC) : Str → Res (Str × Str)
  | [] => .ok ([], [])
  | c :: cs =>
    if isIdentifierChar uc c then (identLoop uc cs).map (fun r => (c :: r.1, r.2))
    else if c = '.' ∨ c = '\'' ∨ c = '[' then .ok ([], c :: cs)
    else .err

/-- `fn identifier` (path_exp.rs 553-573). -/
def identifier (uc : UC) (c : Char) (cs : Str) : Res (PathToken × Str) :=
  (identLoop uc cs).map (fun r => (.field (c :: r.1), r.2))

/-- `fn path_identifier` (path_exp.rs 576-594). -/
def pathIdentifier (uc : UC) : Str → Res (PathToken × Str)
  | [] => .err
  | c :: cs =>
    if c = '*' then .ok (.star, cs)
    else if isIdentifierChar uc c then identifier uc c cs
    else .err

/-- The scanning loop of `fn string_path` (path_exp.rs 600-610): contents up to the closing quote. -/
def stringLoop : Str → Res (Str × Str)
  | [] => .err
  | c :: cs => if c = '\'' then .ok ([], cs) else (stringLoop cs).map (fun r => (c :: r.1, r.2))

/-- `fn string_path` (path_exp.rs 597-624), called after the opening quote. -/
def stringPath (s : Str) : Res (PathToken × Str) :=
  (stringLoop s).bind fun r => if r.1.isEmpty then .err else .ok (.field r.1, r.2)

/-- Longest prefix of numeric characters and the rest (loop of `index_path`, path_exp.rs 630-643). -/
def spanNumeric (uc : UC) : Str → Str × Str
  | [] => ([], [])
  | c :: cs => if uc.numeric c then let r := spanNumeric uc cs; (c :: r.1, r.2) else ([], c :: cs)

/-- `fn index_path` (path_exp.rs 627-653), called with a numeric character first.
`id.parse().unwrap()` panics if the digits do not parse as `usize`. -/
def indexPath (uc : UC) (s : Str) : Res (PathToken × Str) :=
  let r := spanNumeric uc s
  match r.2 with
  | c :: _ => if c ≠ ']' then .err else
      match parseUsize r.1 with
      | some n => .ok (.index n, r.2)
      | none => .panic
  | [] =>
      match parseUsize r.1 with
      | some n => .ok (.index n, r.2)
      | none => .panic

/-- The body of `fn bracket_path` before the closing bracket (path_exp.rs 658-675). -/
def bracketInner (uc : UC) : Str → Res (PathToken × Str)
  | [] => .err
  | c :: cs =>
    if c = '\'' then stringPath cs
    else if uc.numeric c then indexPath uc (c :: cs)
    else if c = '*' then .ok (.starIndex, cs)
    else .err

/-- The closing bracket check of `fn bracket_path` (path_exp.rs 676-687). -/
def closeBracket (r : PathToken × Str) : Res (PathToken × Str) :=
  match r.2 with
  | c :: cs => if c ≠ ']' then .err else .ok (r.1, cs)
  | [] => .err

/-- `fn bracket_path` (path_exp.rs 656-692). -/
def bracketPath (uc : UC) (s : Str) : Res (PathToken × Str) :=
  (bracketInner uc s).bind closeBracket

/-- One iteration of `fn path_exp` (path_exp.rs 698-707). -/
def segment (uc : UC) : Str → Res (PathToken × Str)
  | [] => .err
  | c :: cs =>
    if c = '.' then pathIdentifier uc cs
    else if c = '[' then bracketPath uc cs
    else .err

/-- `fn path_exp` (path_exp.rs 695-709).  The loop is bounded by `fuel`; every iteration consumes a
character, so `fuel = length` always suffices (`pathExpF_fuel` in PathLemmas). -/
def pathExpF (uc : UC) : Nat → Str → Res (List PathToken)
  | _, [] => .ok []
  | 0, _ :: _ => .err
  | fuel + 1, c :: cs =>
    (segment uc (c :: cs)).bind fun r => (pathExpF uc fuel r.2).map (r.1 :: ·)

/-- `fn path_exp` with sufficient fuel. -/
def pathExp (uc : UC) (s : Str) : Res (List PathToken) := pathExpF uc s.length s

/-- `pub fn parse_path_exp` (path_exp.rs 711-735). -/
def parsePathExp (uc : UC) : Str → Res (List PathToken)
  | [] => .ok []
  | c :: cs =>
    if c = '$' then (pathExp uc cs).map (.root :: ·)
    else if uc.alphabetic c || uc.numeric c then
      (identifier uc c cs).bind fun r => (pathExp uc r.2).map (fun ts => .root :: r.1 :: ts)
    else .err

/-- `DocPath::new` (path_exp.rs 94-102). -/
def new (uc : UC) (s : Str) : Res DocPath := (parsePathExp uc s).map (fun ts => ⟨ts, s⟩)

end Path
end Verif
