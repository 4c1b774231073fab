import Verif.DefExpr

/-
  C82, C83: matching rule definition expressions (`rust/pact_models/src/matchingrules/expressions.rs`).

  The specification is a syntax tree of definitions, the words each of them is written with, what it stands
  for, and "laid out": words written in order with any white space between them.
-/

set_option autoImplicit false

namespace Verif
namespace DefExprProps
open DefExpr

/-! ## Specification: syntax -/

/-- A literal value: a quoted string (given by what is between the quotes), `null`, a whole number, a decimal
number or a boolean. -/
inductive Lit where
  | str (c : Str)
  | null
  | whole (t : Str)
  | dec (t : Str)
  | bool (b : Bool)

/-- A value: a literal or `fromProviderState('e', literal)`. -/
inductive Arg where
  | lit (l : Lit)
  | state (e : Str) (l : Lit)

/-- The value of a date or time: a string or a provider state expression, with the word it is written with. -/
inductive Timed where
  | str (c : Str)
  | state (w : Str) (e : Str) (l : Lit)

/-- What `matching(…)` contains. -/
inductive Rule where
  | equalTo (a : Arg)
  | type (a : Arg)
  | regex (r c : Str)
  | datetime (f : Str) (t : Timed)
  | date (f : Str) (t : Timed)
  | time (f : Str) (t : Timed)
  | includes (c : Str)
  | number (a : Arg)
  | integer (a : Arg)
  | decimal (a : Arg)
  | boolean (b : Bool)
  | contentType (ct c : Str)
  | semver (c : Str)
  | ref (n : Str)

/-- An expression. -/
inductive Exp where
  | matching (r : Rule)
  | notEmpty (a : Arg)
  | eachKey (e : Exp)
  | eachValue (e : Exp)
  | atLeast (t : Str)
  | atMost (t : Str)

/-! ## Specification: how they are written -/

/-- A quoted string. -/
def quoted (c : Str) : Str := '\'' :: (c ++ ['\''])

def boolWord (b : Bool) : Str := if b then "true".toList else "false".toList

def litWord : Lit → Str
  | .str c => quoted c
  | .null => "null".toList
  | .whole t => t
  | .dec t => t
  | .bool b => boolWord b

def lpar : Str := ['(']
def rpar : Str := [')']
def comma : Str := [',']

/-- `w('e', l)`. -/
def stateWords (w e : Str) (l : Lit) : List Str := [w, lpar, quoted e, comma, litWord l, rpar]

def argWords : Arg → List Str
  | .lit l => [litWord l]
  | .state e l => stateWords fps e l

def timedWords : Timed → List Str
  | .str c => [quoted c]
  | .state w e l => stateWords w e l

def ruleWords : Rule → List Str
  | .equalTo a => "equalTo".toList :: comma :: argWords a
  | .type a => "type".toList :: comma :: argWords a
  | .regex r c => ["regex".toList, comma, quoted r, comma, quoted c]
  | .datetime f t => "datetime".toList :: comma :: quoted f :: comma :: timedWords t
  | .date f t => "date".toList :: comma :: quoted f :: comma :: timedWords t
  | .time f t => "time".toList :: comma :: quoted f :: comma :: timedWords t
  | .includes c => ["include".toList, comma, quoted c]
  | .number a => "number".toList :: comma :: argWords a
  | .integer a => "integer".toList :: comma :: argWords a
  | .decimal a => "decimal".toList :: comma :: argWords a
  | .boolean b => ["boolean".toList, comma, boolWord b]
  | .contentType ct c => ["contentType".toList, comma, quoted ct, comma, quoted c]
  | .semver c => ["semver".toList, comma, quoted c]
  | .ref n => [['$'], quoted n]

def expWords : Exp → List Str
  | .matching r => "matching".toList :: lpar :: (ruleWords r ++ [rpar])
  | .notEmpty a => "notEmpty".toList :: lpar :: (argWords a ++ [rpar])
  | .eachKey e => "eachKey".toList :: lpar :: (expWords e ++ [rpar])
  | .eachValue e => "eachValue".toList :: lpar :: (expWords e ++ [rpar])
  | .atLeast t => ["atLeast".toList, lpar, t, rpar]
  | .atMost t => ["atMost".toList, lpar, t, rpar]

/-- The expressions after the first one. -/
def moreWords : List Exp → List Str
  | [] => []
  | e :: es => comma :: (expWords e ++ moreWords es)

/-- A definition: expressions separated by commas. -/
def defWords (e : Exp) (es : List Exp) : List Str := expWords e ++ moreWords es

/-- The words in order, with any blanks, tabs, line feeds and form feeds before, between and after them. -/
inductive Laid : List Str → Str → Prop where
  | nil (ws : Str) : (∀ c ∈ ws, c ∈ [' ', '\t', '\n', '\x0c']) → Laid [] ws
  | cons (ws w : Str) (ts : List Str) (s : Str) : (∀ c ∈ ws, c ∈ [' ', '\t', '\n', '\x0c']) → Laid ts s →
      Laid (w :: ts) (ws ++ (w ++ s))

/-! ## Specification: what they stand for -/

/-- A hexadecimal digit and its value. -/
def HexDigit (c : Char) (d : Nat) : Prop :=
  (c, d) ∈ [('0', 0), ('1', 1), ('2', 2), ('3', 3), ('4', 4), ('5', 5), ('6', 6), ('7', 7), ('8', 8), ('9', 9),
    ('a', 10), ('b', 11), ('c', 12), ('d', 13), ('e', 14), ('f', 15),
    ('A', 10), ('B', 11), ('C', 12), ('D', 13), ('E', 14), ('F', 15)]

/-- A hexadecimal number and its value. -/
inductive HexNum : Str → Nat → Prop where
  | nil : HexNum [] 0
  | cons (c : Char) (d : Nat) (s : Str) (n : Nat) : HexDigit c d → HexNum s n → HexNum (c :: s) (d * 16 ^ s.length + n)

/-- A code: hexadecimal digits, with or without a plus sign, of at most 32 bits. -/
def CodeIs (b : Str) (n : Nat) : Prop := ∃ ds, (b = ds ∨ b = '+' :: ds) ∧ ds ≠ [] ∧ HexNum ds n ∧ n < 4294967296

/-- The character with a code, or the replacement character when there is none. -/
def CharIs (n : Nat) (x : Char) : Prop := x.toNat = n ∨ ((∀ y : Char, y.toNat ≠ n) ∧ x.toNat = 0xFFFD)

/-- The escape sequences of strings. -/
inductive Unescapes : Str → Str → Prop where
  | nil : Unescapes [] []
  | last : Unescapes ['\\'] ['\\']
  | char (c : Char) (s r : Str) : c ≠ '\\' → Unescapes s r → Unescapes (c :: s) (c :: r)
  | esc (c e : Char) (s r : Str) :
      (c, e) ∈ [('\\', '\\'), ('b', '\x08'), ('f', '\x0c'), ('n', '\n'), ('r', '\r'), ('t', '\t')] →
      Unescapes s r → Unescapes ('\\' :: c :: s) (e :: r)
  | other (c : Char) (s r : Str) : c ∉ ['\\', 'b', 'f', 'n', 'r', 't', 'u'] →
      Unescapes s r → Unescapes ('\\' :: c :: s) ('\\' :: c :: r)
  | four (a b c d x : Char) (n : Nat) (s r : Str) : a ≠ '{' → CodeIs [a, b, c, d] n → CharIs n x →
      Unescapes s r → Unescapes ('\\' :: 'u' :: a :: b :: c :: d :: s) (x :: r)
  | brace (b : Str) (x : Char) (n : Nat) (s r : Str) : '}' ∉ b → CodeIs b n → CharIs n x →
      Unescapes s r → Unescapes ('\\' :: 'u' :: '{' :: (b ++ '}' :: s)) (x :: r)

/-- What a quoted string stands for, as a name, a format, a regular expression, … -/
def Says (c x : Str) : Prop := Unescapes (trimQuotes c) x

/-- The text of a literal used as a value. -/
def litText : Lit → Str
  | .str c => trimQuotes c
  | .null => []
  | .whole t => t
  | .dec t => t
  | .bool b => boolWord b

def litType : Lit → ValueType
  | .str _ => .string
  | .null => .string
  | .whole _ => .integer
  | .dec _ => .decimal
  | .bool _ => .boolean

/-- The data type the provider state generator is given. -/
def litData : Lit → DataType
  | .str _ => .string
  | .null => .string
  | .whole _ => .integer
  | .dec _ => .decimal
  | .bool _ => .boolean

inductive ArgMeans : Arg → Value → Prop where
  | lit (l : Lit) : ArgMeans (.lit l) (litText l, litType l, none)
  | state (e x : Str) (l : Lit) : Says e x →
      ArgMeans (.state e l) (litText l, litType l, some (.providerState x (some (litData l))))

/-- As `ArgMeans`, where a literal has the type `ty`. -/
inductive NumMeans (ty : ValueType) : Arg → Value → Prop where
  | lit (l : Lit) : NumMeans ty (.lit l) (litText l, ty, none)
  | state (e x : Str) (l : Lit) : Says e x →
      NumMeans ty (.state e l) (litText l, litType l, some (.providerState x (some (litData l))))

inductive TimedMeans (g : Generator) : Timed → Value → Prop where
  | str (c x : Str) : Says c x → TimedMeans g (.str c) (x, .string, some g)
  | state (w e x : Str) (l : Lit) : Says e x →
      TimedMeans g (.state w e l) (litText l, litType l, some (.providerState x (some (litData l))))

/-- Without a provider state expression. -/
def Arg.isLit : Arg → Bool
  | .lit _ => true
  | .state _ _ => false

/-- The value, its type and generator, and the rule or reference of what is inside `matching(…)`. -/
inductive RuleMeans (L : Lib) : Rule → Value → MatchingRule ⊕ MatchingReference → Prop where
  | equalTo (a : Arg) (v : Value) : ArgMeans a v → RuleMeans L (.equalTo a) v (.inl .equality)
  | type (a : Arg) (v : Value) : ArgMeans a v → RuleMeans L (.type a) v (.inl .type)
  | regex (r c x y : Str) : Says r x → Says c y → RuleMeans L (.regex r c) (y, .string, none) (.inl (.regex x))
  | datetime (f x : Str) (t : Timed) (v : Value) : Says f x → TimedMeans (.dateTime (some x) none) t v →
      RuleMeans L (.datetime f t) v (.inl (.timestamp x))
  | date (f x : Str) (t : Timed) (v : Value) : Says f x → TimedMeans (.date (some x) none) t v →
      RuleMeans L (.date f t) v (.inl (.date x))
  | time (f x : Str) (t : Timed) (v : Value) : Says f x → TimedMeans (.time (some x) none) t v →
      RuleMeans L (.time f t) v (.inl (.time x))
  | includes (c x : Str) : Says c x → RuleMeans L (.includes c) (x, .string, none) (.inl (.includes x))
  | number (a : Arg) (v : Value) : NumMeans .number a v → RuleMeans L (.number a) v (.inl .number)
  | integer (a : Arg) (v : Value) : NumMeans .integer a v → RuleMeans L (.integer a) v (.inl .integer)
  | decimal (a : Arg) (v : Value) : NumMeans .decimal a v →
      RuleMeans L (.decimal a) v (.inl (if a.isLit then .decimal else .number))
  | boolean (b : Bool) : RuleMeans L (.boolean b) (boolWord b, .boolean, none) (.inl .boolean)
  | contentType (ct c x y : Str) : Says ct x → Says c y →
      RuleMeans L (.contentType ct c) (y, .unknown, none) (.inl (.contentType x))
  | semver (c x : Str) : Says c x → L.semver x = true → RuleMeans L (.semver c) (x, .string, none) (.inl .semver)
  | ref (n x : Str) : Says n x → RuleMeans L (.ref n) (x, .unknown, none) (.inr ⟨x⟩)

/-- The definition one expression stands for, in a text `v`. -/
inductive ExpMeans (L : Lib) (v : Str) : Exp → RuleDef → Prop where
  | matching (r : Rule) (x : Str) (ty : ValueType) (g : Option Generator) (m : MatchingRule ⊕ MatchingReference) :
      RuleMeans L r (x, ty, g) m → ExpMeans L v (.matching r) ⟨x, ty, [m], g, v⟩
  | notEmpty (a : Arg) (x : Str) (ty : ValueType) (g : Option Generator) : ArgMeans a (x, ty, g) →
      ExpMeans L v (.notEmpty a) ⟨x, ty, [.inl .notEmpty], g, v⟩
  | eachKey (e : Exp) (d : RuleDef) : ExpMeans L v e d →
      ExpMeans L v (.eachKey e) ⟨[], .unknown, [.inl (.eachKey d)], none, v⟩
  | eachValue (e : Exp) (d : RuleDef) : ExpMeans L v e d →
      ExpMeans L v (.eachValue e) ⟨[], .unknown, [.inl (.eachValue d)], none, v⟩
  | atLeast (t : Str) (n : Nat) : parseDigits usizeLim t = some n →
      ExpMeans L v (.atLeast t) ⟨[], .unknown, [.inl (.minType n)], none, v⟩
  | atMost (t : Str) (n : Nat) : parseDigits usizeLim t = some n →
      ExpMeans L v (.atMost t) ⟨[], .unknown, [.inl (.maxType n)], none, v⟩

/-- What each of several expressions stands for. -/
inductive AllMean (L : Lib) (v : Str) : List Exp → List RuleDef → Prop where
  | nil : AllMean L v [] []
  | cons (e : Exp) (es : List Exp) (d : RuleDef) (ds : List RuleDef) :
      ExpMeans L v e d → AllMean L v es ds → AllMean L v (e :: es) (d :: ds)

/-- How informative a type is. -/
def rank : ValueType → Nat
  | .unknown => 0
  | .boolean => 1
  | .number => 2
  | .integer => 3
  | .decimal => 4
  | .string => 5

/-- Several definitions of the same value: the first value that is not empty, the most informative type, all
the rules in order, the first generator. -/
structure Combines (v : Str) (ds : List RuleDef) (d : RuleDef) : Prop where
  value : d.value = ((ds.map (·.value)).find? (fun x => !x.isEmpty)).getD []
  type_mem : d.valueType ∈ ds.map (·.valueType)
  type_max : ∀ t ∈ ds.map (·.valueType), rank t ≤ rank d.valueType
  rules : d.rules = ds.flatMap (·.rules)
  generator : d.generator = (ds.filterMap (·.generator)).head?
  expression : d.expression = v

/-! ## Specification: which texts of words are as documented -/

/-- A quote only after a backslash. -/
def guarded : Bool → Str → Bool
  | _, [] => true
  | esc, c :: cs => if c = '\'' then esc && guarded false cs else guarded (c == '\\') cs

/-- The content of a string that is read as it is written: quotes only after a backslash, and the last character
is neither a backslash nor a quote. -/
def PlainStr (c : Str) : Prop := guarded false c = true ∧ c.getLast? ≠ some '\\' ∧ c.getLast? ≠ some '\''

/-- A whole number that fits: no sign and below 2^64, or a minus sign and at least -2^63. -/
def WholeOk (t : Str) : Prop :=
  (∃ n, parseDigits usizeLim t = some n) ∨ (∃ ds n, t = '-' :: ds ∧ parseDigits (i64Lim + 1) ds = some n)

/-- A decimal number. -/
def DecOk (t : Str) : Prop :=
  ∃ w ds, t = w ++ '.' :: ds ∧ WholeOk w ∧ ds ≠ [] ∧ ∀ c ∈ ds, c.isDigit = true

/-- A whole number, a point and anything. -/
def DecLoose (t : Str) : Prop := ∃ w x, t = w ++ '.' :: x ∧ WholeOk w

/-- The literal is as documented. -/
def PlainLit : Lit → Prop
  | .str c => PlainStr c
  | .null => True
  | .whole t => WholeOk t
  | .dec t => DecOk t
  | .bool _ => True

def PlainArg : Arg → Prop
  | .lit l => PlainLit l
  | .state e l => PlainStr e ∧ PlainLit l

def PlainTimed : Timed → Prop
  | .str c => PlainStr c
  | .state w e l => w = fps ∧ PlainStr e ∧ PlainLit l

/-- The literal is a number. -/
def Lit.numeric : Lit → Prop
  | .whole _ => True
  | .dec _ => True
  | _ => False

/-- The literal is a whole number. -/
def Lit.integral : Lit → Prop
  | .whole _ => True
  | _ => False

/-- A number, or a provider state expression with any literal. -/
def Arg.numeric : Arg → Prop
  | .lit l => l.numeric
  | .state _ _ => True

def Arg.integral : Arg → Prop
  | .lit l => l.integral
  | .state _ _ => True

def PlainRule : Rule → Prop
  | .equalTo a => PlainArg a
  | .type a => PlainArg a
  | .regex r c => PlainStr r ∧ PlainStr c
  | .datetime f t => PlainStr f ∧ PlainTimed t
  | .date f t => PlainStr f ∧ PlainTimed t
  | .time f t => PlainStr f ∧ PlainTimed t
  | .includes c => PlainStr c
  | .number a => PlainArg a ∧ a.numeric
  | .integer a => PlainArg a ∧ a.integral
  | .decimal a => PlainArg a ∧ a.numeric
  | .boolean _ => True
  | .contentType ct c => PlainStr ct ∧ PlainStr c
  | .semver c => PlainStr c
  | .ref n => PlainStr n

def PlainExp : Exp → Prop
  | .matching r => PlainRule r
  | .notEmpty a => PlainArg a
  | .eachKey e => PlainExp e
  | .eachValue e => PlainExp e
  | .atLeast t => ∃ n, parseDigits usizeLim t = some n
  | .atMost t => ∃ n, parseDigits usizeLim t = some n

/-! ## The lexer on laid out words -/

/-- What may follow a word: nothing, a blank, a bracket or a comma. -/
def Stop (s : Str) : Prop := s.head?.all (fun c => skip c || c == '(' || c == ')' || c == ',') = true

theorem skip_iff (c : Char) : skip c = true ↔ c ∈ [' ', '\t', '\n', '\x0c'] := by
  simp [skip, or_assoc]

theorem dropWhile_all {p : Char → Bool} (ws s : Str) (h : ∀ c ∈ ws, p c = true) :
    (ws ++ s).dropWhile p = s.dropWhile p := by
  induction ws with
  | nil => rfl
  | cons c cs ih =>
    rw [List.cons_append, List.dropWhile_cons_of_pos (h c (by simp)), ih (fun x hx => h x (by simp [hx]))]

theorem next_of {L : Lib} {ws : Str} {c : Char} {cs : Str} (hw : ∀ c ∈ ws, c ∈ [' ', '\t', '\n', '\x0c'])
    (hc : skip c = false) : next L (ws ++ c :: cs) = some (token L c cs) := by
  have h : (ws ++ c :: cs).dropWhile skip = c :: cs := by
    rw [dropWhile_all ws _ (fun x hx => (skip_iff x).2 (hw x hx)), List.dropWhile_cons_of_neg (by simp [hc])]
  unfold next
  rw [h]

theorem next_nil {L : Lib} {ws : Str} (hw : ∀ c ∈ ws, c ∈ [' ', '\t', '\n', '\x0c']) : next L ws = none := by
  have h : ws.dropWhile skip = [] := by
    have := dropWhile_all (p := skip) ws [] (fun x hx => (skip_iff x).2 (hw x hx))
    simpa using this
  unfold next
  rw [h]

theorem takeWhile_run {p : Char → Bool} (w r : Str) (hw : ∀ c ∈ w, p c = true) (hr : r.head?.all (fun c => !p c) = true) :
    (w ++ r).takeWhile p = w ∧ (w ++ r).dropWhile p = r := by
  induction w with
  | nil =>
    cases r with
    | nil => exact ⟨rfl, rfl⟩
    | cons c cs =>
      have : p c = false := by simpa using hr
      exact ⟨List.takeWhile_cons_of_neg (by simp [this]), List.dropWhile_cons_of_neg (by simp [this])⟩
  | cons c cs ih =>
    have h1 := hw c (by simp)
    have h2 := ih (fun x hx => hw x (by simp [hx]))
    rw [List.cons_append, List.takeWhile_cons_of_pos h1, List.dropWhile_cons_of_pos h1, h2.1, h2.2]
    exact ⟨rfl, rfl⟩

theorem stop_not {p : Char → Bool} {s : Str} (h : Stop s)
    (hp : ∀ c, c = ' ' ∨ c = '\t' ∨ c = '\n' ∨ c = '\x0c' ∨ c = '(' ∨ c = ')' ∨ c = ',' → p c = false) :
    s.head?.all (fun c => !p c) = true := by
  cases s with
  | nil => rfl
  | cons c cs =>
    have hc : (skip c || c == '(' || c == ')' || c == ',') = true := h
    have : p c = false := by
      apply hp
      simp only [skip, Bool.or_eq_true, beq_iff_eq] at hc
      simpa only [or_assoc] using hc
    show (!p c) = true
    rw [this]; rfl

theorem stop_alpha {s : Str} (h : Stop s) : s.head?.all (fun c => !Char.isAlpha c) = true :=
  stop_not h (by rintro c (rfl | rfl | rfl | rfl | rfl | rfl | rfl) <;> decide)

theorem stop_digit {s : Str} (h : Stop s) : s.head?.all (fun c => !Char.isDigit c) = true :=
  stop_not h (by rintro c (rfl | rfl | rfl | rfl | rfl | rfl | rfl) <;> decide)

theorem stop_point {s : Str} (h : Stop s) : s.head? ≠ some '.' := by
  have := stop_not (p := fun c => c == '.') h (by rintro c (rfl | rfl | rfl | rfl | rfl | rfl | rfl) <;> decide)
  intro e
  rw [e] at this
  exact absurd this (by decide)

/-- Letters are not white space, digits or punctuation. -/
theorem alpha_facts {c : Char} (h : c.isAlpha = true) : skip c = false ∧ c.isDigit = false := by
  have h' : (65 ≤ c.toNat ∧ c.toNat ≤ 90) ∨ (97 ≤ c.toNat ∧ c.toNat ≤ 122) := by
    simp only [Char.isAlpha, Char.isUpper, Char.isLower, Bool.or_eq_true, Bool.and_eq_true, decide_eq_true_eq] at h
    rcases h with ⟨a, b⟩ | ⟨a, b⟩
    · left
      exact ⟨by simpa using UInt32.le_iff_toNat_le.mp a, by simpa using UInt32.le_iff_toNat_le.mp b⟩
    · right
      exact ⟨by simpa using UInt32.le_iff_toNat_le.mp a, by simpa using UInt32.le_iff_toNat_le.mp b⟩
  constructor
  · rw [Bool.eq_false_iff]
    intro hs
    rw [skip_iff] at hs
    simp only [List.mem_cons, List.not_mem_nil, or_false] at hs
    rcases hs with rfl | rfl | rfl | rfl <;> revert h' <;> decide
  · rw [Bool.eq_false_iff]
    intro hd
    simp only [Char.isDigit, Bool.and_eq_true, decide_eq_true_eq] at hd
    have h1 : c.toNat ≤ 57 := by simpa using UInt32.le_iff_toNat_le.mp hd.2
    omega

theorem digit_facts {c : Char} (h : c.isDigit = true) : skip c = false ∧ c.isAlpha = false := by
  constructor
  · rw [Bool.eq_false_iff]
    intro hs
    rw [skip_iff] at hs
    simp only [List.mem_cons, List.not_mem_nil, or_false] at hs
    rcases hs with rfl | rfl | rfl | rfl <;> revert h <;> decide
  · rw [Bool.eq_false_iff]
    intro ha
    rw [(alpha_facts ha).2] at h
    exact absurd h (by decide)

theorem next_word {L : Lib} {ws w r : Str} (hw : ∀ c ∈ ws, c ∈ [' ', '\t', '\n', '\x0c']) (hl : w.all Char.isAlpha = true)
    (hn : w ≠ []) (hr : r.head?.all (fun c => !Char.isAlpha c) = true) :
    next L (ws ++ (w ++ r)) = some ⟨some (wordTok w), w, r⟩ := by
  cases w with
  | nil => exact absurd rfl hn
  | cons c cs =>
    have hc : c.isAlpha = true := (List.all_eq_true.1 hl) c (by simp)
    have h := takeWhile_run (c :: cs) r (List.all_eq_true.1 hl) hr
    rw [List.cons_append, next_of hw (alpha_facts hc).1]
    unfold token
    rw [if_pos hc, word, ← List.cons_append, h.1, h.2]

theorem next_single {L : Lib} {ws r : Str} {c : Char} {t : Tok} (hw : ∀ c ∈ ws, c ∈ [' ', '\t', '\n', '\x0c'])
    (h : (c, t) ∈ [('(', Tok.leftBracket), (')', Tok.rightBracket), (',', Tok.comma), ('$', Tok.dollar)]) :
    next L (ws ++ ([c] ++ r)) = some ⟨some t, [c], r⟩ := by
  simp only [List.mem_cons, Prod.mk.injEq, List.not_mem_nil, or_false] at h
  rcases h with ⟨rfl, rfl⟩ | ⟨rfl, rfl⟩ | ⟨rfl, rfl⟩ | ⟨rfl, rfl⟩ <;>
  · show next L (ws ++ _ :: r) = _
    rw [next_of hw (by decide)]
    rfl

/-- The end of a string whose content is guarded and does not end with a backslash. -/
theorem strEnd_plain (r : Str) : ∀ (c : Str) (esc : Bool), guarded esc c = true → c.getLast? ≠ some '\\' →
    (c = [] → esc = false) → strEnd esc (c ++ '\'' :: r) = some (c ++ ['\''], r)
  | [], esc, _, _, he => by
    rw [he rfl]
    rfl
  | x :: xs, esc, hg, hl, _ => by
    have hl' : xs.getLast? ≠ some '\\' := by
      intro e
      apply hl
      cases xs with
      | nil => cases e
      | cons y ys => rw [List.getLast?_cons_cons]; exact e
    rw [guarded] at hg
    rw [List.cons_append, strEnd]
    split at hg
    · rename_i hx
      rw [Bool.and_eq_true] at hg
      rw [if_pos hx, if_pos hg.1, strEnd_plain r xs false hg.2 hl' (fun _ => rfl)]
      rfl
    · rename_i hx
      have he : xs = [] → (x == '\\') = false := by
        intro e
        subst e
        rw [beq_eq_false_iff_ne]
        intro e'
        exact hl (by rw [e']; rfl)
      rw [if_neg hx, strEnd_plain r xs _ hg hl' he]
      rfl

theorem next_string {L : Lib} {ws c r : Str} (hw : ∀ c ∈ ws, c ∈ [' ', '\t', '\n', '\x0c']) (hc : PlainStr c) :
    next L (ws ++ (quoted c ++ r)) = some ⟨some .string, quoted c, r⟩ := by
  unfold quoted
  rw [List.cons_append, next_of hw (by decide), List.append_assoc, List.singleton_append]
  show some (string L (c ++ '\'' :: r)) = _
  unfold string
  rw [strEnd_plain r c false hc.1 hc.2.1 (fun _ => rfl)]

theorem laid_cons {w : Str} {ts : List Str} {s : Str} (h : Laid (w :: ts) s) :
    ∃ ws s', (∀ c ∈ ws, c ∈ [' ', '\t', '\n', '\x0c']) ∧ s = ws ++ (w ++ s') ∧ Laid ts s' := by
  cases h with
  | cons ws w ts s' hw hs => exact ⟨ws, s', hw, rfl, hs⟩

theorem laid_nil {s : Str} (h : Laid [] s) : ∀ c ∈ s, c ∈ [' ', '\t', '\n', '\x0c'] := by
  cases h with
  | nil ws hw => exact hw

/-- No more words, or a bracket or a comma. -/
def StopW (ts : List Str) : Prop := ts = [] ∨ ∃ w us, ts = w :: us ∧ w ∈ [lpar, rpar, comma]

theorem stop_skip {ws s : Str} (hw : ∀ c ∈ ws, c ∈ [' ', '\t', '\n', '\x0c']) (hs : Stop s) : Stop (ws ++ s) := by
  cases ws with
  | nil => exact hs
  | cons c cs =>
    have h := (skip_iff c).2 (hw c (by simp))
    show (skip c || _ || _ || _) = true
    rw [h]; rfl

theorem laid_stop {ts : List Str} {s : Str} (h : Laid ts s) (ht : StopW ts) : Stop s := by
  rcases ht with rfl | ⟨w, us, rfl, hw⟩
  · have := stop_skip (laid_nil h) (s := []) rfl
    rwa [List.append_nil] at this
  · obtain ⟨ws, s', h1, rfl, _⟩ := laid_cons h
    apply stop_skip h1
    simp only [List.mem_cons, List.not_mem_nil, or_false] at hw
    rcases hw with rfl | rfl | rfl <;> rfl

theorem stopW_par (ts : List Str) : StopW (rpar :: ts) := Or.inr ⟨rpar, ts, rfl, by simp⟩
theorem stopW_lpar (ts : List Str) : StopW (lpar :: ts) := Or.inr ⟨lpar, ts, rfl, by simp⟩
theorem stopW_comma (ts : List Str) : StopW (comma :: ts) := Or.inr ⟨comma, ts, rfl, by simp⟩

theorem expect_single {L : Lib} {c : Char} {t : Tok} {ts : List Str} {s : Str}
    (hc : (c, t) ∈ [('(', Tok.leftBracket), (')', Tok.rightBracket), (',', Tok.comma), ('$', Tok.dollar)])
    (h : Laid ([c] :: ts) s) : ∃ s', expect L t s = .ok ([c], s') ∧ Laid ts s' := by
  obtain ⟨ws, s', h1, rfl, h2⟩ := laid_cons h
  refine ⟨s', ?_, h2⟩
  unfold expect
  rw [next_single h1 hc]
  simp only [if_true]

theorem expect_lpar {L : Lib} {ts : List Str} {s : Str} (h : Laid (lpar :: ts) s) :
    ∃ s', expect L .leftBracket s = .ok (lpar, s') ∧ Laid ts s' := expect_single (by simp) h

theorem expect_rpar {L : Lib} {ts : List Str} {s : Str} (h : Laid (rpar :: ts) s) :
    ∃ s', expect L .rightBracket s = .ok (rpar, s') ∧ Laid ts s' := expect_single (by simp) h

theorem comma_read {L : Lib} {ts : List Str} {s : Str} (h : Laid (comma :: ts) s) :
    ∃ s', parseComma L s = .ok s' ∧ Laid ts s' := by
  obtain ⟨s', h1, h2⟩ := expect_single (L := L) (t := .comma) (by simp) h
  exact ⟨s', by rw [parseComma, h1]; rfl, h2⟩

/-! ## Strings -/

theorem map_ok_iff {r : Res Str} {f : Str → Str} {x : Str} : r.map f = .ok x ↔ ∃ y, r = .ok y ∧ f y = x := Res.map_eq_ok

theorem escapeOf_table (c e : Char) : escapeOf c = some e ↔
    (c, e) ∈ [('\\', '\\'), ('b', '\x08'), ('f', '\x0c'), ('n', '\n'), ('r', '\r'), ('t', '\t')] := by
  unfold escapeOf
  simp only [List.mem_cons, Prod.mk.injEq, List.not_mem_nil, or_false]
  constructor
  · intro h
    split at h
    · rename_i hc; injection h with h; exact Or.inl ⟨hc, h.symm⟩
    split at h
    · rename_i hc; injection h with h; exact Or.inr (Or.inl ⟨hc, h.symm⟩)
    split at h
    · rename_i hc; injection h with h; exact Or.inr (Or.inr (Or.inl ⟨hc, h.symm⟩))
    split at h
    · rename_i hc; injection h with h; exact Or.inr (Or.inr (Or.inr (Or.inl ⟨hc, h.symm⟩)))
    split at h
    · rename_i hc; injection h with h; exact Or.inr (Or.inr (Or.inr (Or.inr (Or.inl ⟨hc, h.symm⟩))))
    split at h
    · rename_i hc; injection h with h; exact Or.inr (Or.inr (Or.inr (Or.inr (Or.inr ⟨hc, h.symm⟩))))
    · cases h
  · rintro (⟨rfl, rfl⟩ | ⟨rfl, rfl⟩ | ⟨rfl, rfl⟩ | ⟨rfl, rfl⟩ | ⟨rfl, rfl⟩ | ⟨rfl, rfl⟩) <;> rfl

theorem escapeOf_none (c : Char) : (escapeOf c = none ∧ c ≠ 'u') ↔ c ∉ ['\\', 'b', 'f', 'n', 'r', 't', 'u'] := by
  simp only [List.mem_cons, List.not_mem_nil, or_false, not_or]
  constructor
  · rintro ⟨h, hu⟩
    unfold escapeOf at h
    split at h; · cases h
    split at h; · cases h
    split at h; · cases h
    split at h; · cases h
    split at h; · cases h
    split at h; · cases h
    exact ⟨by assumption, by assumption, by assumption, by assumption, by assumption, by assumption, hu⟩
  · rintro ⟨h1, h2, h3, h4, h5, h6, h7⟩
    refine ⟨?_, h7⟩
    unfold escapeOf
    rw [if_neg h1, if_neg h2, if_neg h3, if_neg h4, if_neg h5, if_neg h6]

theorem unicode_ok {b : Str} {q : Res Str} {x : Str} :
    unicode b q = .ok x ↔ ∃ n y, hexCode b = some n ∧ q = .ok y ∧ x = charOf n :: y := by
  unfold unicode
  cases h : hexCode b with
  | none => simp
  | some n =>
    simp only [Res.map_eq_ok]
    constructor
    · rintro ⟨a, h1, h2⟩
      exact ⟨n, a, rfl, h1, h2.symm⟩
    · rintro ⟨m, y, h1, h2, h3⟩
      injection h1 with h1
      subst h1
      exact ⟨y, h2, h3.symm⟩

/-- The braces of a unicode escape. -/
theorem unescape_brace : ∀ (s b x : Str), unescape (.brace b) s = .ok x ↔
    ∃ b' s' n y, s = b' ++ '}' :: s' ∧ '}' ∉ b' ∧ hexCode (b ++ b') = some n ∧ unescape .plain s' = .ok y ∧
      x = charOf n :: y
  | [], b, x => by
    rw [unescape]
    constructor
    · intro h; cases h
    · rintro ⟨b', s', n, y, h, _⟩
      cases b' <;> cases h
  | c :: cs, b, x => by
    rw [unescape]
    split
    · rename_i hc
      subst hc
      rw [unicode_ok]
      constructor
      · rintro ⟨n, y, h1, h2, h3⟩
        exact ⟨[], cs, n, y, rfl, by simp, by rwa [List.append_nil], h2, h3⟩
      · rintro ⟨b', s', n, y, h1, h2, h3, h4, h5⟩
        cases b' with
        | nil =>
          rw [List.nil_append] at h1
          injection h1 with _ h1
          subst h1
          exact ⟨n, y, by rwa [List.append_nil] at h3, h4, h5⟩
        | cons d ds =>
          rw [List.cons_append] at h1
          injection h1 with h1 _
          exact absurd (List.mem_cons.2 (Or.inl h1)) h2
    · rename_i hc
      rw [unescape_brace cs (b ++ [c]) x]
      constructor
      · rintro ⟨b', s', n, y, h1, h2, h3, h4, h5⟩
        refine ⟨c :: b', s', n, y, by rw [h1]; rfl, ?_, by simpa using h3, h4, h5⟩
        simp only [List.mem_cons, not_or]
        exact ⟨fun e => hc e.symm, h2⟩
      · rintro ⟨b', s', n, y, h1, h2, h3, h4, h5⟩
        cases b' with
        | nil =>
          rw [List.nil_append] at h1
          injection h1 with h1 _
          exact absurd h1 hc
        | cons d ds =>
          rw [List.cons_append] at h1
          injection h1 with h1 h1'
          subst h1
          simp only [List.mem_cons, not_or] at h2
          exact ⟨ds, s', n, y, h1', h2.2, by simpa using h3, h4, h5⟩

/-- The four digits of a unicode escape. -/
theorem unescape_four (a : Char) (s x : Str) : unescape (.four [a]) s = .ok x ↔
    ∃ b c d s' n y, s = b :: c :: d :: s' ∧ hexCode [a, b, c, d] = some n ∧ unescape .plain s' = .ok y ∧
      x = charOf n :: y := by
  match s with
  | [] => simp [unescape]
  | [b] => simp [unescape]
  | [b, c] => simp [unescape]
  | b :: c :: d :: s' =>
    have : unescape (.four [a]) (b :: c :: d :: s') = unicode [a, b, c, d] (unescape .plain s') := by
      simp [unescape]
    rw [this, unicode_ok]
    constructor
    · rintro ⟨n, y, h1, h2, h3⟩
      exact ⟨b, c, d, s', n, y, rfl, h1, h2, h3⟩
    · rintro ⟨b', c', d', s'', n, y, h1, h2, h3, h4⟩
      injection h1 with e1 h1
      injection h1 with e2 h1
      injection h1 with e3 e4
      subst e1 e2 e3 e4
      exact ⟨n, y, h2, h3, h4⟩

theorem hexVal_iff (c : Char) (d : Nat) : QS.hexVal c = some d ↔ HexDigit c d := by
  constructor
  · intro h
    unfold QS.hexVal at h
    have key : ∀ n : Nat, c.toNat = n → c = Char.ofNat n := by
      rintro n rfl
      exact (Char.ofNat_toNat c).symm
    have le : ∀ a b : Char, a ≤ b → a.toNat ≤ b.toNat := fun a b h => h
    split at h
    · rename_i hc
      have h1 := le _ _ hc.1
      have h2 := le _ _ hc.2
      injection h with h
      change 48 ≤ c.toNat at h1
      change c.toNat ≤ 57 at h2
      have : d < 10 ∧ c.toNat = 48 + d := by omega
      obtain ⟨h3, h4⟩ := this
      have hd := key _ h4
      match d, h3, hd with
      | 0, _, hd | 1, _, hd | 2, _, hd | 3, _, hd | 4, _, hd | 5, _, hd | 6, _, hd | 7, _, hd | 8, _, hd | 9, _, hd =>
        rw [hd]; unfold HexDigit; decide
    · split at h
      · rename_i hc
        have h1 := le _ _ hc.1
        have h2 := le _ _ hc.2
        injection h with h
        change 97 ≤ c.toNat at h1
        change c.toNat ≤ 102 at h2
        have : 10 ≤ d ∧ d < 16 ∧ c.toNat = 87 + d := by omega
        obtain ⟨h3, h5, h4⟩ := this
        have hd := key _ h4
        have : d = 10 ∨ d = 11 ∨ d = 12 ∨ d = 13 ∨ d = 14 ∨ d = 15 := by omega
        rcases this with rfl | rfl | rfl | rfl | rfl | rfl <;> rw [hd] <;> unfold HexDigit <;> decide
      · split at h
        · rename_i hc
          have h1 := le _ _ hc.1
          have h2 := le _ _ hc.2
          injection h with h
          change 65 ≤ c.toNat at h1
          change c.toNat ≤ 70 at h2
          have : 10 ≤ d ∧ d < 16 ∧ c.toNat = 55 + d := by omega
          obtain ⟨h3, h5, h4⟩ := this
          have hd := key _ h4
          have : d = 10 ∨ d = 11 ∨ d = 12 ∨ d = 13 ∨ d = 14 ∨ d = 15 := by omega
          rcases this with rfl | rfl | rfl | rfl | rfl | rfl <;> rw [hd] <;> unfold HexDigit <;> decide
        · cases h
  · intro h
    unfold HexDigit at h
    simp only [List.mem_cons, Prod.mk.injEq, List.not_mem_nil, or_false] at h
    rcases h with ⟨rfl, rfl⟩ | ⟨rfl, rfl⟩ | ⟨rfl, rfl⟩ | ⟨rfl, rfl⟩ | ⟨rfl, rfl⟩ | ⟨rfl, rfl⟩ | ⟨rfl, rfl⟩ | ⟨rfl, rfl⟩ |
      ⟨rfl, rfl⟩ | ⟨rfl, rfl⟩ | ⟨rfl, rfl⟩ | ⟨rfl, rfl⟩ | ⟨rfl, rfl⟩ | ⟨rfl, rfl⟩ | ⟨rfl, rfl⟩ | ⟨rfl, rfl⟩ |
      ⟨rfl, rfl⟩ | ⟨rfl, rfl⟩ | ⟨rfl, rfl⟩ | ⟨rfl, rfl⟩ | ⟨rfl, rfl⟩ | ⟨rfl, rfl⟩ <;> decide

theorem hexDigits_iff : ∀ (s : Str) (acc k : Nat),
    hexDigits acc s = some k ↔ ∃ n, HexNum s n ∧ k = acc * 16 ^ s.length + n
  | [], acc, k => by
    rw [hexDigits]
    constructor
    · intro h
      injection h with h
      exact ⟨0, .nil, by simp [h]⟩
    · rintro ⟨n, h, rfl⟩
      cases h
      simp
  | c :: cs, acc, k => by
    rw [hexDigits]
    constructor
    · intro h
      split at h
      · rename_i d hd
        obtain ⟨n, h1, h2⟩ := (hexDigits_iff cs _ _).1 h
        refine ⟨_, .cons c d cs n ((hexVal_iff c d).1 hd) h1, ?_⟩
        rw [h2, List.length_cons, Nat.pow_succ, Nat.add_mul, Nat.mul_assoc, Nat.mul_comm 16]
        omega
      · cases h
    · rintro ⟨n, h, rfl⟩
      cases h with
      | cons _ d _ n h1 h2 =>
        rw [(hexVal_iff c d).2 h1]
        refine (hexDigits_iff cs _ _).2 ⟨n, h2, ?_⟩
        rw [List.length_cons, Nat.pow_succ, Nat.add_mul, Nat.mul_assoc, Nat.mul_comm 16]
        omega

theorem plus_no_digit (d : Nat) : ¬ HexDigit '+' d := by
  intro h
  have := (hexVal_iff '+' d).2 h
  have h0 : QS.hexVal '+' = none := by decide
  rw [h0] at this
  cases this

theorem hexCode_iff (b : Str) (n : Nat) : hexCode b = some n ↔ CodeIs b n := by
  have key : ∀ ds : Str, (if ds.isEmpty then none else (hexDigits 0 ds).bind fun n => if n < 2 ^ 32 then some n else none) = some n ↔
      ds ≠ [] ∧ HexNum ds n ∧ n < 4294967296 := by
    intro ds
    cases ds with
    | nil => simp
    | cons c cs =>
      have h0 := hexDigits_iff (c :: cs) 0
      simp only [Nat.zero_mul, Nat.zero_add] at h0
      have e : ∀ k, hexDigits 0 (c :: cs) = some k ↔ HexNum (c :: cs) k := by
        intro k
        rw [h0]
        constructor
        · rintro ⟨m, h, rfl⟩; exact h
        · intro h; exact ⟨k, h, rfl⟩
      simp only [List.isEmpty_cons, Bool.false_eq_true, if_false, Option.bind_eq_some_iff]
      constructor
      · rintro ⟨k, h1, h2⟩
        split at h2
        · rename_i hk
          injection h2 with h2
          subst h2
          exact ⟨by simp, (e k).1 h1, hk⟩
        · cases h2
      · rintro ⟨_, h1, h2⟩
        exact ⟨n, (e n).2 h1, by rw [if_pos h2]⟩
  unfold hexCode CodeIs
  rw [key]
  cases b with
  | nil =>
    constructor
    · rintro ⟨h, _⟩; exact absurd rfl h
    · rintro ⟨ds, h | h, h1, _⟩
      · exact absurd h.symm h1
      · cases h
  | cons c r =>
    by_cases hp : c = '+'
    · subst hp
      have : unsigned ('+' :: r) = r := by rw [unsigned, if_pos rfl]
      rw [this]
      constructor
      · rintro ⟨h1, h2, h3⟩
        exact ⟨r, Or.inr rfl, h1, h2, h3⟩
      · rintro ⟨ds, h | h, h1, h2, h3⟩
        · exfalso
          rw [← h] at h2
          generalize hx : ('+' :: r : Str) = x at h2
          cases h2 with
          | nil => cases hx
          | cons c d s m hd hs =>
            injection hx with hx1 hx2
            rw [← hx1] at hd
            exact plus_no_digit d hd
        · injection h with _ h
          subst h
          exact ⟨h1, h2, h3⟩
    · have : unsigned (c :: r) = c :: r := by rw [unsigned, if_neg hp]
      rw [this]
      constructor
      · rintro ⟨h1, h2, h3⟩
        exact ⟨_, Or.inl rfl, h1, h2, h3⟩
      · rintro ⟨ds, h | h, h1, h2, h3⟩
        · subst h
          exact ⟨h1, h2, h3⟩
        · injection h with h _
          exact absurd h hp

theorem charOf_iff (n : Nat) (x : Char) : charOf n = x ↔ CharIs n x := by
  have inj : ∀ a b : Char, a.toNat = b.toNat → a = b := by
    intro a b h
    rw [← Char.ofNat_toNat a, ← Char.ofNat_toNat b, h]
  unfold charOf CharIs
  by_cases hv : n.isValidChar
  · rw [if_pos hv]
    have h1 : (Char.ofNat n).toNat = n := by
      simp [Char.ofNat, hv, Char.toNat, Char.ofNatAux]
    constructor
    · rintro rfl
      exact Or.inl h1
    · rintro (h | ⟨h, _⟩)
      · exact inj _ _ (by rw [h1, h])
      · exact absurd h1 (h _)
  · rw [if_neg hv]
    constructor
    · rintro rfl
      refine Or.inr ⟨?_, rfl⟩
      intro y hy
      exact hv (hy ▸ y.valid)
    · rintro (h | ⟨_, h⟩)
      · exact absurd (h ▸ x.valid) hv
      · exact inj _ _ (by rw [h]; rfl)

theorem unescape_sound : ∀ (n : Nat) (s x : Str), s.length ≤ n → unescape .plain s = .ok x → Unescapes s x
  | n, [], x, _, h => by
    rw [unescape] at h
    injection h with h
    subst h
    exact .nil
  | 0, _ :: _, _, h, _ => absurd h (by simp)
  | n + 1, c :: cs, x, hn, h => by
    have hn' : cs.length ≤ n := by simpa using hn
    rw [unescape] at h
    split at h
    · rename_i hc
      subst hc
      match cs, h, hn' with
      | [], h, _ =>
        rw [unescape] at h
        injection h with h
        subst h
        exact .last
      | d :: ds, h, hn' =>
        have hd : ds.length ≤ n := by simp at hn'; omega
        rw [unescape] at h
        split at h
        · rename_i e he
          obtain ⟨y, h1, h2⟩ := Res.map_eq_ok.1 h
          subst h2
          exact .esc d e ds y ((escapeOf_table d e).1 he) (unescape_sound n ds y hd h1)
        · rename_i he
          split at h
          · rename_i hu
            subst hu
            match ds, h, hd with
            | [], h, _ => rw [unescape] at h; cases h
            | a :: as, h, hd =>
              rw [unescape] at h
              split at h
              · rename_i ha
                subst ha
                obtain ⟨b', s', k, y, h1, h2, h3, h4, h5⟩ := (unescape_brace as [] x).1 h
                subst h1 h5
                refine .brace b' _ k s' y h2 ((hexCode_iff _ _).1 h3) ((charOf_iff k _).1 rfl) (unescape_sound n s' y ?_ h4)
                simp at hd
                omega
              · rename_i ha
                obtain ⟨b, c, d, s', k, y, h1, h2, h3, h4⟩ := (unescape_four a as x).1 h
                subst h1 h4
                refine .four a b c d _ k s' y ha ((hexCode_iff _ _).1 h2) ((charOf_iff k _).1 rfl) (unescape_sound n s' y ?_ h3)
                simp at hd
                omega
          · rename_i hu
            obtain ⟨y, h1, h2⟩ := Res.map_eq_ok.1 h
            subst h2
            exact .other d ds y ((escapeOf_none d).1 ⟨he, hu⟩) (unescape_sound n ds y hd h1)
    · rename_i hc
      obtain ⟨y, h1, h2⟩ := Res.map_eq_ok.1 h
      subst h2
      exact .char c cs y hc (unescape_sound n cs y hn' h1)

theorem unescape_complete {s x : Str} (h : Unescapes s x) : unescape .plain s = .ok x := by
  induction h with
  | nil => rfl
  | last => rfl
  | char c s r hc _ ih => rw [unescape, if_neg hc, ih]; rfl
  | esc c e s r he _ ih =>
    rw [unescape, if_pos rfl, unescape, (escapeOf_table c e).2 he]
    simp only [ih, Res.map_ok]
  | other c s r hc _ ih =>
    have h := (escapeOf_none c).2 hc
    rw [unescape, if_pos rfl, unescape, h.1]
    simp only [if_neg h.2, ih, Res.map_ok]
  | four a b c d x n s r ha hx hc _ ih =>
    rw [← (charOf_iff n x).2 hc]
    have h1 : unescape .u (a :: b :: c :: d :: s) = .ok (charOf n :: r) := by
      rw [unescape, if_neg ha, unescape_four]
      exact ⟨b, c, d, s, n, r, rfl, (hexCode_iff _ _).2 hx, ih, rfl⟩
    rw [unescape, if_pos rfl, unescape]
    exact h1
  | brace b x n s r hb hx hc _ ih =>
    rw [← (charOf_iff n x).2 hc]
    have h1 : unescape .u ('{' :: (b ++ '}' :: s)) = .ok (charOf n :: r) := by
      rw [unescape, if_pos rfl, unescape_brace]
      exact ⟨b, s, n, r, rfl, hb, (hexCode_iff _ _).2 hx, ih, rfl⟩
    rw [unescape, if_pos rfl, unescape]
    exact h1

/-- The escape sequences are those of the specification. -/
theorem unescape_iff (s x : Str) : unescape .plain s = .ok x ↔ Unescapes s x :=
  ⟨unescape_sound s.length s x (Nat.le_refl _), unescape_complete⟩

theorem dropWhile_none {p : Char → Bool} (s : Str) (h : ∀ c ∈ s, p c = true) : s.dropWhile p = [] := by
  have := dropWhile_all s [] h
  simpa using this

theorem dropWhile_append {p : Char → Bool} : ∀ (s t : Str), (∃ c ∈ s, p c = false) →
    (s ++ t).dropWhile p = s.dropWhile p ++ t
  | [], _, ⟨_, h, _⟩ => absurd h (by simp)
  | c :: cs, t, ⟨d, hd, hp⟩ => by
    cases hc : p c with
    | true =>
      rw [List.cons_append, List.dropWhile_cons_of_pos hc, List.dropWhile_cons_of_pos hc]
      apply dropWhile_append cs t
      rcases List.mem_cons.1 hd with rfl | hd
      · rw [hc] at hp; cases hp
      · exact ⟨d, hd, hp⟩
    | false =>
      rw [List.cons_append, List.dropWhile_cons_of_neg (by simp [hc]), List.dropWhile_cons_of_neg (by simp [hc])]
      rfl

/-- The quotes of a string literal are trimmed. -/
theorem trim_quoted (c : Str) : trimQuotes (quoted c) = trimQuotes c := by
  unfold trimQuotes quoted
  rw [List.dropWhile_cons_of_pos (by decide)]
  by_cases h : ∃ x ∈ c, (x == '\'') = false
  · rw [dropWhile_append c _ h, List.reverse_append]
    rw [List.reverse_singleton, List.singleton_append, List.dropWhile_cons_of_pos (by decide)]
  · have h' : ∀ x ∈ c, (x == '\'') = true := by
      intro x hx
      cases hq : (x == '\'') with
      | true => rfl
      | false => exact absurd ⟨x, hx, hq⟩ h
    rw [dropWhile_none c h', dropWhile_none (c ++ ['\''])]
    intro x hx
    rcases List.mem_append.1 hx with hx | hx
    · exact h' x hx
    · rw [List.mem_singleton.1 hx]; decide

/-- Nothing but the quotes around it is trimmed from a plain string. -/
theorem trim_plain {c : Str} (h : PlainStr c) : trimQuotes c = c := by
  obtain ⟨h1, _, h3⟩ := h
  have e1 : c.dropWhile (· == '\'') = c := by
    cases c with
    | nil => rfl
    | cons x xs =>
      rw [guarded] at h1
      split at h1
      · cases h1
      · rename_i hx
        exact List.dropWhile_cons_of_neg (by simpa using hx)
  have e2 : c.reverse.dropWhile (· == '\'') = c.reverse := by
    cases hr : c.reverse with
    | nil => rfl
    | cons x xs =>
      apply List.dropWhile_cons_of_neg
      intro e
      apply h3
      have e' : x = '\'' := by simpa using e
      rw [← List.reverse_reverse c, hr, List.getLast?_reverse, e']
      rfl
  unfold trimQuotes
  rw [e1, e2, List.reverse_reverse]

theorem string_read {L : Lib} {c x : Str} {ts : List Str} {s : Str} (hc : PlainStr c) (hx : Says c x)
    (h : Laid (quoted c :: ts) s) : ∃ s', parseString L s = .ok (x, s') ∧ Laid ts s' := by
  obtain ⟨ws, s', h1, rfl, h2⟩ := laid_cons h
  refine ⟨s', ?_, h2⟩
  unfold parseString expect
  rw [next_string h1 hc]
  simp only [if_true, Res.bind_ok]
  rw [trim_quoted, unescape_complete hx]
  rfl

/-! ## Numbers -/

theorem parseDigits_facts {lim n : Nat} {t : Str} (h : parseDigits lim t = some n) :
    t ≠ [] ∧ ∀ c ∈ t, c.isDigit = true := by
  unfold parseDigits at h
  split at h
  · cases h
  · rename_i he
    refine ⟨by rintro rfl; exact he rfl, ?_⟩
    have : ∀ (t : Str) (a : Nat), (digitsVal a t).isSome = true → ∀ c ∈ t, c.isDigit = true := by
      intro t
      induction t with
      | nil => intro a _ c hc; cases hc
      | cons x xs ih =>
        intro a hs c hc
        rw [digitsVal] at hs
        split at hs
        · rename_i hx
          rcases List.mem_cons.1 hc with rfl | hc
          · exact hx
          · exact ih _ hs c hc
        · cases hs
    apply this t 0
    cases hd : digitsVal 0 t with
    | none => rw [hd] at h; cases h
    | some k => rfl

theorem fraction_point {ds r : Str} (hd : ∀ c ∈ ds, c.isDigit = true) (hn : ds ≠ [])
    (hr : r.head?.all (fun c => !Char.isDigit c) = true) : fraction ('.' :: (ds ++ r)) = some ('.' :: ds, r) := by
  have h := takeWhile_run ds r hd hr
  rw [fraction, h.1, h.2]
  rw [if_neg]
  intro e
  exact hn (List.isEmpty_iff.1 e)

theorem fraction_none {r : Str} (h : r.head? ≠ some '.') : fraction r = none := by
  cases r with
  | nil => rfl
  | cons c cs =>
    unfold fraction
    split
    · rename_i s he
      injection he with he _
      subst he
      exact absurd rfl h
    · rfl

theorem all_not_digit {s : Str} (h : s.head? = some '.') : s.head?.all (fun c => !Char.isDigit c) = true := by
  rw [h]; rfl

/-- A number of digits without a fraction that the lexer takes in. -/
theorem next_num {L : Lib} {ws t r : Str} {n : Nat} (hw : ∀ c ∈ ws, c ∈ [' ', '\t', '\n', '\x0c'])
    (hp : parseDigits usizeLim t = some n) (hr : r.head?.all (fun c => !Char.isDigit c) = true)
    (hf : t.length = 1 → fraction r = none) :
    next L (ws ++ (t ++ r)) = some ⟨some .num, t, r⟩ := by
  obtain ⟨h1, h2⟩ := parseDigits_facts hp
  have h := takeWhile_run t r h2 hr
  cases t with
  | nil => exact absurd rfl h1
  | cons c cs =>
    have hc := h2 c (by simp)
    rw [List.cons_append, next_of hw (digit_facts hc).1]
    unfold token
    rw [if_neg (by rw [(digit_facts hc).2]; decide), if_pos hc, ← List.cons_append, number]
    simp only [h.1, h.2]
    have : (if (c :: cs).length = 1 then fraction r else none) = none := by
      split
      · rename_i hl; exact hf hl
      · rfl
    rw [this]
    simp only [hp, Option.isSome_some, if_true]

theorem next_int {L : Lib} {ws t r : Str} {n : Nat} (hw : ∀ c ∈ ws, c ∈ [' ', '\t', '\n', '\x0c'])
    (hp : parseDigits (i64Lim + 1) t = some n) (hr : r.head?.all (fun c => !Char.isDigit c) = true)
    (hf : t.length = 1 → fraction r = none) :
    next L (ws ++ (('-' :: t) ++ r)) = some ⟨some .int, '-' :: t, r⟩ := by
  obtain ⟨h1, h2⟩ := parseDigits_facts hp
  have h := takeWhile_run t r h2 hr
  rw [List.cons_append, next_of hw (by decide)]
  show some (negative L (t ++ r)) = _
  unfold negative
  simp only [h.1, h.2]
  rw [if_neg (by intro e; exact h1 (List.isEmpty_iff.1 e))]
  have : (if t.length = 1 then fraction r else none) = none := by
    split
    · rename_i hl; exact hf hl
    · rfl
  rw [this]
  simp only [hp, Option.isSome_some, if_true]

theorem next_decimal {L : Lib} {ws r f : Str} {d : Char} {r' : Str} (hw : ∀ c ∈ ws, c ∈ [' ', '\t', '\n', '\x0c'])
    (hd : d.isDigit = true) (hr : r.head?.all (fun c => !Char.isDigit c) = true)
    (hf : fraction r = some (f, r')) :
    next L (ws ++ (d :: r)) = some ⟨some .decimal, d :: f, r'⟩ := by
  have h := takeWhile_run [d] r (by simpa using hd) hr
  rw [List.singleton_append] at h
  rw [next_of hw (digit_facts hd).1]
  unfold token
  rw [if_neg (by rw [(digit_facts hd).2]; decide), if_pos hd, number]
  simp only [h.1, h.2, List.length_singleton, if_true, hf]
  rfl

theorem next_decimal_neg {L : Lib} {ws r f : Str} {d : Char} {r' : Str} (hw : ∀ c ∈ ws, c ∈ [' ', '\t', '\n', '\x0c'])
    (hd : d.isDigit = true) (hr : r.head?.all (fun c => !Char.isDigit c) = true)
    (hf : fraction r = some (f, r')) :
    next L (ws ++ ('-' :: d :: r)) = some ⟨some .decimal, '-' :: d :: f, r'⟩ := by
  have h := takeWhile_run [d] r (by simpa using hd) hr
  rw [List.singleton_append] at h
  rw [next_of hw (by decide)]
  show some (negative L (d :: r)) = _
  unfold negative
  simp only [h.1, h.2, List.length_singleton, if_true, hf]
  rfl

theorem next_point {L : Lib} {ds r : Str} (hd : ∀ c ∈ ds, c.isDigit = true) (hn : ds ≠ [])
    (hr : r.head?.all (fun c => !Char.isDigit c) = true) :
    next L ('.' :: (ds ++ r)) = some ⟨some .decimalPart, '.' :: ds, r⟩ := by
  have := next_of (L := L) (ws := []) (c := '.') (cs := ds ++ r) (by simp) (by decide)
  rw [List.nil_append] at this
  rw [this]
  show some (point L ('.' :: (ds ++ r))) = _
  unfold point
  rw [fraction_point hd hn hr]

/-- How a number is read: as one token, or as a whole number with or without a fraction after it. -/
theorem num_read {L : Lib} {l : Lit} {ts : List Str} {s : Str} (hl : PlainLit l) (hn : l.numeric) (ht : StopW ts)
    (h : Laid (litWord l :: ts) s) : ∃ lx s', next L s = some lx ∧ Laid ts s' ∧
      ((lx.tok = some .decimal ∧ lx.text = litText l ∧ lx.rest = s' ∧ litType l = .decimal) ∨
       ((lx.tok = some .num ∨ lx.tok = some .int) ∧ (litType l = .integer → lx.text = litText l ∧ lx.rest = s') ∧
         ∀ a b, wholeOr L a b lx.text lx.rest = .ok ((litText l, if litType l = .integer then a else b, none), s'))) := by
  obtain ⟨ws, s', h1, rfl, h2⟩ := laid_cons h
  have hs := laid_stop h2 ht
  have hp := stop_point hs
  have hdp : decimalPart L s' = none := by unfold decimalPart; rw [if_neg hp]
  cases l with
  | str c => exact absurd hn id
  | null => exact absurd hn id
  | bool b => exact absurd hn id
  | whole t =>
    rcases hl with ⟨n, hk⟩ | ⟨ds, n, rfl, hk⟩
    · refine ⟨_, s', next_num h1 hk (stop_digit hs) (fun _ => fraction_none hp), h2, Or.inr ⟨Or.inl rfl, fun _ => ⟨rfl, rfl⟩, ?_⟩⟩
      intro a b
      unfold wholeOr
      rw [hdp]
      rfl
    · refine ⟨_, s', next_int h1 hk (stop_digit hs) (fun _ => fraction_none hp), h2, Or.inr ⟨Or.inr rfl, fun _ => ⟨rfl, rfl⟩, ?_⟩⟩
      intro a b
      unfold wholeOr
      rw [hdp]
      rfl
  | dec t =>
    obtain ⟨w, ds, rfl, hw, hd1, hd2⟩ := hl
    have hf := fraction_point hd2 hd1 (stop_digit hs)
    have hnx := next_point (L := L) hd2 hd1 (stop_digit hs)
    have hpt : decimalPart L ('.' :: (ds ++ s')) = some (.ok ('.' :: ds, s')) := by
      unfold decimalPart
      rw [if_pos (show ('.' :: (ds ++ s')).head? = some '.' from rfl), hnx]
    have hwo : ∀ w a b, wholeOr L a b w ('.' :: (ds ++ s')) = .ok ((w ++ '.' :: ds, b, none), s') := by
      intro w a b
      unfold wholeOr
      rw [hpt]
      rfl
    show ∃ lx s'', next L (ws ++ ((w ++ '.' :: ds) ++ s')) = some lx ∧ _
    rw [List.append_assoc, List.cons_append]
    rcases hw with ⟨n, hk⟩ | ⟨es, n, rfl, hk⟩
    · obtain ⟨g1, g2⟩ := parseDigits_facts hk
      by_cases hl1 : w.length = 1
      · obtain ⟨d, rfl⟩ := List.length_eq_one_iff.1 hl1
        exact ⟨_, s', next_decimal h1 (g2 d (by simp)) rfl hf, h2, Or.inl ⟨rfl, rfl, rfl, rfl⟩⟩
      · refine ⟨_, s', next_num h1 hk rfl (fun e => absurd e hl1), h2, Or.inr ⟨Or.inl rfl, (fun e => by cases e), ?_⟩⟩
        intro a b
        exact hwo w a b
    · obtain ⟨g1, g2⟩ := parseDigits_facts hk
      by_cases hl1 : es.length = 1
      · obtain ⟨d, rfl⟩ := List.length_eq_one_iff.1 hl1
        exact ⟨_, s', next_decimal_neg h1 (g2 d (by simp)) rfl hf, h2, Or.inl ⟨rfl, rfl, rfl, rfl⟩⟩
      · refine ⟨_, s', next_int h1 hk rfl (fun e => absurd e hl1), h2, Or.inr ⟨Or.inr rfl, (fun e => by cases e), ?_⟩⟩
        intro a b
        exact hwo ('-' :: es) a b

/-! ## Values -/

theorem next_letters {L : Lib} {w : Str} {ts : List Str} {s : Str} (hl : w.all Char.isAlpha = true) (hn : w ≠ [])
    (ht : StopW ts) (h : Laid (w :: ts) s) :
    ∃ s', next L s = some ⟨some (wordTok w), w, s'⟩ ∧ Laid ts s' := by
  obtain ⟨ws, s', h1, rfl, h2⟩ := laid_cons h
  exact ⟨s', next_word h1 hl hn (stop_alpha (laid_stop h2 ht)), h2⟩

theorem lit_read {L : Lib} {l : Lit} {ts : List Str} {s : Str} (hl : PlainLit l) (ht : StopW ts)
    (h : Laid (litWord l :: ts) s) : ∃ lx s', next L s = some lx ∧ isFps lx = false ∧
      parseLiteral L lx = .ok ((litText l, litType l, none), s') ∧ Laid ts s' := by
  have num : l.numeric → ∃ lx s', next L s = some lx ∧ isFps lx = false ∧
      parseLiteral L lx = .ok ((litText l, litType l, none), s') ∧ Laid ts s' := by
    intro hn
    obtain ⟨lx, s', h1, h2, h3⟩ := num_read (L := L) hl hn ht h
    refine ⟨lx, s', h1, ?_, ?_, h2⟩
    · rcases h3 with ⟨h3, _⟩ | ⟨h3 | h3, _⟩ <;> rw [isFps, h3] <;> rfl
    · have hty : (if litType l = .integer then ValueType.integer else .decimal) = litType l := by
        cases l <;> first | rfl | exact absurd hn id
      rcases h3 with ⟨h3, h4, h5, h6⟩ | ⟨h3 | h3, _, h4⟩
      · unfold parseLiteral
        rw [h3, h4, h5, h6]
      · have := h4 .integer .decimal
        rw [hty] at this
        unfold parseLiteral
        rw [h3]
        exact this
      · have := h4 .integer .decimal
        rw [hty] at this
        unfold parseLiteral
        rw [h3]
        exact this
  cases l with
  | str c =>
    obtain ⟨ws, s', h1, rfl, h2⟩ := laid_cons h
    refine ⟨_, s', next_string h1 hl, rfl, ?_, h2⟩
    show Res.ok ((trimQuotes (quoted c), _, _), _) = _
    rw [trim_quoted]
    rfl
  | null =>
    obtain ⟨s', h1, h2⟩ := next_letters (L := L) (w := "null".toList) (by decide) (by decide) ht h
    exact ⟨_, s', h1, rfl, rfl, h2⟩
  | bool b =>
    cases b with
    | true =>
      obtain ⟨s', h1, h2⟩ := next_letters (L := L) (w := "true".toList) (by decide) (by decide) ht h
      exact ⟨_, s', h1, rfl, rfl, h2⟩
    | false =>
      obtain ⟨s', h1, h2⟩ := next_letters (L := L) (w := "false".toList) (by decide) (by decide) ht h
      exact ⟨_, s', h1, rfl, rfl, h2⟩
  | whole t => exact num trivial
  | dec t => exact num trivial

theorem dataType_lit (l : Lit) : dataType (litType l) = litData l := by cases l <;> rfl

theorem nextOr_of {L : Lib} {s : Str} {lx : Lexeme} (h : next L s = some lx) : nextOr L s = .ok lx := by
  unfold nextOr
  rw [h]

theorem state_read {L : Lib} {e x : Str} {l : Lit} {ts : List Str} {s : Str} (he : PlainStr e) (hx : Says e x)
    (hl : PlainLit l) (h : Laid (lpar :: quoted e :: comma :: litWord l :: rpar :: ts) s) :
    ∃ s', fromProviderState L s =
      .ok ((litText l, litType l, some (.providerState x (some (litData l)))), s') ∧ Laid ts s' := by
  obtain ⟨s1, e1, h1⟩ := expect_lpar (L := L) h
  obtain ⟨s2, e2, h2⟩ := string_read (L := L) he hx h1
  obtain ⟨s3, e3, h3⟩ := comma_read (L := L) h2
  obtain ⟨lx, s4, e4, _, e5, h4⟩ := lit_read (L := L) hl (stopW_par ts) h3
  obtain ⟨s5, e6, h5⟩ := expect_rpar (L := L) h4
  refine ⟨s5, ?_, h5⟩
  unfold fromProviderState
  simp only [e1, Res.bind_ok, e2, e3, nextOr_of e4, e5, e6, Res.map_ok, dataType_lit]

theorem arg_read {L : Lib} {a : Arg} {v : Value} {ts : List Str} {s : Str} (ha : PlainArg a) (hv : ArgMeans a v)
    (ht : StopW ts) (h : Laid (argWords a ++ ts) s) : ∃ s', parsePrimitive L s = .ok (v, s') ∧ Laid ts s' := by
  cases hv with
  | lit l =>
    obtain ⟨lx, s', h1, h2, h3, h4⟩ := lit_read (L := L) ha ht h
    refine ⟨s', ?_, h4⟩
    unfold parsePrimitive
    rw [nextOr_of h1, Res.bind_ok, h2]
    exact h3
  | state e x l hx =>
    obtain ⟨s1, e1, h1⟩ := next_letters (L := L) (w := fps) (by decide) (by decide) (stopW_lpar _) h
    obtain ⟨s2, e2, h2⟩ := state_read (L := L) ha.1 hx ha.2 h1
    refine ⟨s2, ?_, h2⟩
    unfold parsePrimitive
    rw [nextOr_of e1, Res.bind_ok]
    have : isFps ⟨some (wordTok fps), fps, s1⟩ = true := rfl
    rw [if_pos this]
    exact e2

theorem white_alpha {L : Lib} {c : Char} (h : c.isAlpha = true) : L.uc.white c = false := by
  have h' : (65 ≤ c.toNat ∧ c.toNat ≤ 90) ∨ (97 ≤ c.toNat ∧ c.toNat ≤ 122) := by
    simp only [Char.isAlpha, Char.isUpper, Char.isLower, Bool.or_eq_true, Bool.and_eq_true, decide_eq_true_eq] at h
    rcases h with ⟨a, b⟩ | ⟨a, b⟩
    · left
      exact ⟨by simpa using UInt32.le_iff_toNat_le.mp a, by simpa using UInt32.le_iff_toNat_le.mp b⟩
    · right
      exact ⟨by simpa using UInt32.le_iff_toNat_le.mp a, by simpa using UInt32.le_iff_toNat_le.mp b⟩
  rw [L.uc.white_ascii c (by omega), asciiWhite]
  have h1 : (c.toNat == 32) = false := by rw [beq_eq_false_iff_ne]; omega
  rw [h1, Bool.false_or]
  rw [Bool.and_eq_false_iff]
  right
  rw [decide_eq_false_iff_not]
  omega

theorem white_skip {L : Lib} {ws : Str} (h : ∀ c ∈ ws, c ∈ [' ', '\t', '\n', '\x0c']) : ∀ c ∈ ws, L.uc.white c = true := by
  intro c hc
  have := h c hc
  simp only [List.mem_cons, List.not_mem_nil, or_false] at this
  rcases this with rfl | rfl | rfl | rfl <;> rw [L.uc.white_ascii _ (by decide)] <;> decide

theorem ahead_quote {L : Lib} {ws r : Str} (h : ∀ c ∈ ws, c ∈ [' ', '\t', '\n', '\x0c']) :
    fpsAhead L (ws ++ '\'' :: r) = false := by
  unfold fpsAhead
  rw [dropWhile_all ws _ (white_skip h),
    List.dropWhile_cons_of_neg (by rw [L.uc.white_ascii _ (by decide)]; decide)]
  rfl

theorem isPrefixOf_append (w r : Str) : w.isPrefixOf (w ++ r) = true := by
  induction w with
  | nil => rfl
  | cons c cs ih => rw [List.cons_append, List.isPrefixOf, ih]; simp

theorem ahead_fps {L : Lib} {ws r : Str} (h : ∀ c ∈ ws, c ∈ [' ', '\t', '\n', '\x0c']) :
    fpsAhead L (ws ++ (fps ++ r)) = true := by
  unfold fpsAhead
  rw [dropWhile_all ws _ (white_skip h)]
  have : (fps ++ r).dropWhile L.uc.white = fps ++ r := by
    show ('f' :: _).dropWhile L.uc.white = _
    rw [List.dropWhile_cons_of_neg (by rw [white_alpha (by decide)]; decide)]
    rfl
  rw [this]
  exact isPrefixOf_append fps r

theorem timed_read {L : Lib} {g : Generator} {t : Timed} {v : Value} {ts : List Str} {s : Str} (hp : PlainTimed t)
    (hv : TimedMeans g t v) (h : Laid (timedWords t ++ ts) s) :
    ∃ s', parseTimed L g s = .ok (v, s') ∧ Laid ts s' := by
  cases hv with
  | str c x hx =>
    obtain ⟨ws, s', h1, h2, h3⟩ := laid_cons h
    obtain ⟨s2, e2, h4⟩ := string_read (L := L) hp hx h
    refine ⟨s2, ?_, h4⟩
    have : fpsAhead L s = false := by
      rw [h2]
      exact ahead_quote h1
    unfold parseTimed
    rw [if_neg (by rw [this]; decide), e2]
    rfl
  | state w e x l hx =>
    obtain ⟨rfl, he, hl⟩ := hp
    obtain ⟨ws, s', h1, h2, h3⟩ := laid_cons h
    obtain ⟨s1, e1, h1'⟩ := next_letters (L := L) (w := fps) (by decide) (by decide) (stopW_lpar _) h
    obtain ⟨s2, e2, h4⟩ := state_read (L := L) he hx hl h1'
    refine ⟨s2, ?_, h4⟩
    have : fpsAhead L s = true := by
      rw [h2]
      exact ahead_fps h1
    unfold parseTimed
    rw [if_pos this, e1]
    exact e2

/-! ## Rules and expressions -/

theorem comma_then {α : Type} {L : Lib} {ts : List Str} {s : Str} {f : Str → Res α} (h : Laid (comma :: ts) s) :
    ∃ s', (parseComma L s).bind f = f s' ∧ Laid ts s' := by
  obtain ⟨s', h1, h2⟩ := comma_read (L := L) h
  exact ⟨s', by rw [h1, Res.bind_ok], h2⟩

/-- What the parser of a rule hands over. -/
def Hands (p : Parts) (v : Value) (m : MatchingRule ⊕ MatchingReference) : Prop :=
  ∀ text, ofParts text p = .ok ⟨v.1, v.2.1, [m], v.2.2, text⟩

theorem hands_rule {m : MatchingRule} {v : Value} {s : Str} : Hands (withRule m (v, s)).1 v (.inl m) := fun _ => rfl

theorem any_read {L : Lib} {m : MatchingRule} {a : Arg} {v : Value} {ts : List Str} {s : Str} (ha : PlainArg a)
    (hv : ArgMeans a v) (ht : StopW ts) (h : Laid (comma :: (argWords a ++ ts)) s) :
    ∃ p s', parseAny L m s = .ok (p, s') ∧ Laid ts s' ∧ Hands p v (.inl m) := by
  obtain ⟨s1, e1, h1⟩ := comma_read (L := L) h
  obtain ⟨s2, e2, h2⟩ := arg_read (L := L) ha hv ht h1
  refine ⟨_, s2, ?_, h2, hands_rule (s := s2)⟩
  unfold parseAny
  rw [e1, Res.bind_ok, e2]
  rfl

theorem configured_read {L : Lib} {m : Str → MatchingRule} {ty : ValueType} {c d x y : Str} {ts : List Str} {s : Str}
    (hc : PlainStr c) (hd : PlainStr d) (hx : Says c x) (hy : Says d y)
    (h : Laid (comma :: quoted c :: comma :: quoted d :: ts) s) :
    ∃ p s', parseConfigured L m ty s = .ok (p, s') ∧ Laid ts s' ∧ Hands p (y, ty, none) (.inl (m x)) := by
  obtain ⟨s1, e1, h1⟩ := comma_read (L := L) h
  obtain ⟨s2, e2, h2⟩ := string_read (L := L) hc hx h1
  obtain ⟨s3, e3, h3⟩ := comma_read (L := L) h2
  obtain ⟨s4, e4, h4⟩ := string_read (L := L) hd hy h3
  refine ⟨⟨y, ty, some (m x), none, none⟩, s4, ?_, h4, fun _ => rfl⟩
  unfold parseConfigured
  simp only [e1, Res.bind_ok, e2, e3, e4, Res.map_ok]

theorem time_read {L : Lib} {m : Str → MatchingRule} {g : Str → Generator} {f x : Str} {t : Timed} {v : Value}
    {ts : List Str} {s : Str} (hf : PlainStr f) (hx : Says f x) (hp : PlainTimed t) (hv : TimedMeans (g x) t v)
    (h : Laid (comma :: quoted f :: comma :: (timedWords t ++ ts)) s) :
    ∃ p s', parseTime L m g s = .ok (p, s') ∧ Laid ts s' ∧ Hands p v (.inl (m x)) := by
  obtain ⟨s1, e1, h1⟩ := comma_read (L := L) h
  obtain ⟨s2, e2, h2⟩ := string_read (L := L) hf hx h1
  obtain ⟨s3, e3, h3⟩ := comma_read (L := L) h2
  obtain ⟨s4, e4, h4⟩ := timed_read (L := L) hp hv h3
  refine ⟨_, s4, ?_, h4, hands_rule (s := s4)⟩
  unfold parseTime
  simp only [e1, Res.bind_ok, e2, e3, e4, Res.map_ok]
  rfl

theorem fps_read {L : Lib} {e x : Str} {l : Lit} {ts : List Str} {s : Str} (he : PlainStr e) (hx : Says e x)
    (hl : PlainLit l) (h : Laid (stateWords fps e l ++ ts) s) :
    ∃ s1 s', next L s = some ⟨some .id, fps, s1⟩ ∧ fromProviderState L s1 =
      .ok ((litText l, litType l, some (.providerState x (some (litData l)))), s') ∧ Laid ts s' := by
  obtain ⟨s1, e1, h1⟩ := next_letters (L := L) (w := fps) (by decide) (by decide) (stopW_lpar _) h
  obtain ⟨s2, e2, h2⟩ := state_read (L := L) he hx hl h1
  exact ⟨s1, s2, e1, e2, h2⟩

theorem number_read {L : Lib} {a : Arg} {v : Value} {ts : List Str} {s : Str} (ha : PlainArg a) (hn : a.numeric)
    (hv : NumMeans .number a v) (ht : StopW ts) (h : Laid (comma :: (argWords a ++ ts)) s) :
    ∃ p s', parseNumber L s = .ok (p, s') ∧ Laid ts s' ∧ Hands p v (.inl .number) := by
  obtain ⟨s1, e1, h1⟩ := comma_read (L := L) h
  cases hv with
  | lit l =>
    obtain ⟨lx, s2, e2, h2, h3⟩ := num_read (L := L) ha hn ht h1
    rcases h3 with ⟨h3, h4, h5, _⟩ | ⟨h3 | h3, _, h4⟩
    · refine ⟨_, s2, ?_, h2, hands_rule (s := s2)⟩
      unfold parseNumber
      simp only [e1, Res.bind_ok, nextOr_of e2, h3, h4, h5]
      rfl
    · refine ⟨_, s2, ?_, h2, hands_rule (s := s2)⟩
      unfold parseNumber
      simp only [e1, Res.bind_ok, nextOr_of e2, h3, h4, ite_self, Res.map_ok]
      rfl
    · refine ⟨_, s2, ?_, h2, hands_rule (s := s2)⟩
      unfold parseNumber
      simp only [e1, Res.bind_ok, nextOr_of e2, h3, h4, ite_self, Res.map_ok]
      rfl
  | state e x l hx =>
    obtain ⟨s2, s3, e2, e3, h3⟩ := fps_read (L := L) ha.1 hx ha.2 h1
    refine ⟨_, s3, ?_, h3, hands_rule (s := s3)⟩
    unfold parseNumber
    have : isFps ⟨some .id, fps, s2⟩ = true := rfl
    simp only [e1, Res.bind_ok, nextOr_of e2, this, if_true, e3, Res.map_ok]
    rfl

theorem integer_read {L : Lib} {a : Arg} {v : Value} {ts : List Str} {s : Str} (ha : PlainArg a) (hn : a.integral)
    (hv : NumMeans .integer a v) (ht : StopW ts) (h : Laid (comma :: (argWords a ++ ts)) s) :
    ∃ p s', parseInteger L s = .ok (p, s') ∧ Laid ts s' ∧ Hands p v (.inl .integer) := by
  obtain ⟨s1, e1, h1⟩ := comma_read (L := L) h
  cases hv with
  | lit l =>
    cases l with
    | whole t =>
      obtain ⟨lx, s2, e2, h2, h3⟩ := num_read (L := L) (l := .whole t) ha trivial ht h1
      rcases h3 with ⟨_, _, _, h3⟩ | ⟨h3 | h3, h4, _⟩
      · cases h3
      · obtain ⟨h5, h6⟩ := h4 rfl
        refine ⟨_, s2, ?_, h2, hands_rule (s := s2)⟩
        unfold parseInteger
        simp only [e1, Res.bind_ok, nextOr_of e2, h3, h5, h6]
        rfl
      · obtain ⟨h5, h6⟩ := h4 rfl
        refine ⟨_, s2, ?_, h2, hands_rule (s := s2)⟩
        unfold parseInteger
        simp only [e1, Res.bind_ok, nextOr_of e2, h3, h5, h6]
        rfl
    | str c => exact absurd hn id
    | null => exact absurd hn id
    | dec t => exact absurd hn id
    | bool b => exact absurd hn id
  | state e x l hx =>
    obtain ⟨s2, s3, e2, e3, h3⟩ := fps_read (L := L) ha.1 hx ha.2 h1
    refine ⟨_, s3, ?_, h3, hands_rule (s := s3)⟩
    unfold parseInteger
    have : isFps ⟨some .id, fps, s2⟩ = true := rfl
    simp only [e1, Res.bind_ok, nextOr_of e2, this, if_true, e3, Res.map_ok]
    rfl

theorem decimal_read {L : Lib} {a : Arg} {v : Value} {ts : List Str} {s : Str} (ha : PlainArg a) (hn : a.numeric)
    (hv : NumMeans .decimal a v) (ht : StopW ts) (h : Laid (comma :: (argWords a ++ ts)) s) :
    ∃ p s', parseDecimal L s = .ok (p, s') ∧ Laid ts s' ∧
      Hands p v (.inl (if a.isLit then .decimal else .number)) := by
  obtain ⟨s1, e1, h1⟩ := comma_read (L := L) h
  cases hv with
  | lit l =>
    obtain ⟨lx, s2, e2, h2, h3⟩ := num_read (L := L) ha hn ht h1
    rcases h3 with ⟨h3, h4, h5, _⟩ | ⟨h3 | h3, _, h4⟩
    · refine ⟨_, s2, ?_, h2, hands_rule (s := s2)⟩
      unfold parseDecimal
      simp only [e1, Res.bind_ok, nextOr_of e2, h3, h4, h5]
      rfl
    · refine ⟨_, s2, ?_, h2, hands_rule (s := s2)⟩
      unfold parseDecimal
      simp only [e1, Res.bind_ok, nextOr_of e2, h3, h4, ite_self, Res.map_ok]
      rfl
    · refine ⟨_, s2, ?_, h2, hands_rule (s := s2)⟩
      unfold parseDecimal
      simp only [e1, Res.bind_ok, nextOr_of e2, h3, h4, ite_self, Res.map_ok]
      rfl
  | state e x l hx =>
    obtain ⟨s2, s3, e2, e3, h3⟩ := fps_read (L := L) ha.1 hx ha.2 h1
    refine ⟨_, s3, ?_, h3, hands_rule (s := s3)⟩
    unfold parseDecimal
    have : isFps ⟨some .id, fps, s2⟩ = true := rfl
    simp only [e1, Res.bind_ok, nextOr_of e2, this, if_true, e3, Res.map_ok]
    rfl

/-- A matcher is chosen by its name. -/
theorem named_read {L : Lib} {w : Str} {f : Str → Res (Parts × Str)} {us : List Str} {s : Str}
    (hl : w.all Char.isAlpha = true) (hn : w ≠ []) (hid : wordTok w = .id)
    (hf : Json.lookup w (matchers L) = some f) (h : Laid (w :: comma :: us) s) :
    ∃ s1, parseRule L s = f s1 ∧ Laid (comma :: us) s1 := by
  obtain ⟨s1, e1, h1⟩ := next_letters (L := L) hl hn (stopW_comma us) h
  refine ⟨s1, ?_, h1⟩
  unfold parseRule
  rw [hid] at e1
  simp only [nextOr_of e1, Res.bind_ok, hf]

theorem rule_read {L : Lib} {r : Rule} {v : Value} {m : MatchingRule ⊕ MatchingReference} {ts : List Str} {s : Str}
    (hp : PlainRule r) (hv : RuleMeans L r v m) (ht : StopW ts) (h : Laid (ruleWords r ++ ts) s) :
    ∃ p s', parseRule L s = .ok (p, s') ∧ Laid ts s' ∧ Hands p v m := by
  cases hv with
  | equalTo a v ha =>
    obtain ⟨s1, e1, h1⟩ := named_read (w := "equalTo".toList) (f := parseAny L .equality) (by decide) (by decide) (by decide) rfl h
    rw [e1]
    exact any_read hp ha ht h1
  | type a v ha =>
    obtain ⟨s1, e1, h1⟩ := named_read (w := "type".toList) (f := parseAny L .type) (by decide) (by decide) (by decide) rfl h
    rw [e1]
    exact any_read hp ha ht h1
  | regex r c x y hx hy =>
    obtain ⟨s1, e1, h1⟩ := named_read (w := "regex".toList) (f := parseConfigured L .regex .string) (by decide) (by decide) (by decide) rfl h
    rw [e1]
    exact configured_read hp.1 hp.2 hx hy h1
  | datetime f x t v hx hv =>
    obtain ⟨s1, e1, h1⟩ := named_read (w := "datetime".toList) (f := parseTime L .timestamp fun f => .dateTime (some f) none)
      (by decide) (by decide) (by decide) rfl h
    rw [e1]
    exact time_read hp.1 hx hp.2 hv h1
  | date f x t v hx hv =>
    obtain ⟨s1, e1, h1⟩ := named_read (w := "date".toList) (f := parseTime L .date fun f => .date (some f) none)
      (by decide) (by decide) (by decide) rfl h
    rw [e1]
    exact time_read hp.1 hx hp.2 hv h1
  | time f x t v hx hv =>
    obtain ⟨s1, e1, h1⟩ := named_read (w := "time".toList) (f := parseTime L .time fun f => .time (some f) none)
      (by decide) (by decide) (by decide) rfl h
    rw [e1]
    exact time_read hp.1 hx hp.2 hv h1
  | includes c x hx =>
    obtain ⟨s1, e1, h1⟩ := named_read (w := "include".toList) (f := parseInclude L) (by decide) (by decide) (by decide) rfl h
    obtain ⟨s2, e2, h2⟩ := comma_read (L := L) h1
    obtain ⟨s3, e3, h3⟩ := string_read (L := L) hp hx h2
    refine ⟨⟨x, .string, some (.includes x), none, none⟩, s3, ?_, h3, fun _ => rfl⟩
    rw [e1, parseInclude]
    simp only [e2, Res.bind_ok, e3, Res.map_ok]
  | number a v ha =>
    obtain ⟨s1, e1, h1⟩ := named_read (w := "number".toList) (f := parseNumber L) (by decide) (by decide) (by decide) rfl h
    rw [e1]
    exact number_read hp.1 hp.2 ha ht h1
  | integer a v ha =>
    obtain ⟨s1, e1, h1⟩ := named_read (w := "integer".toList) (f := parseInteger L) (by decide) (by decide) (by decide) rfl h
    rw [e1]
    exact integer_read hp.1 hp.2 ha ht h1
  | decimal a v ha =>
    obtain ⟨s1, e1, h1⟩ := named_read (w := "decimal".toList) (f := parseDecimal L) (by decide) (by decide) (by decide) rfl h
    rw [e1]
    exact decimal_read hp.1 hp.2 ha ht h1
  | boolean b =>
    obtain ⟨s1, e1, h1⟩ := named_read (w := "boolean".toList) (f := parseBoolean L) (by decide) (by decide) (by decide) rfl h
    obtain ⟨s2, e2, h2⟩ := comma_read (L := L) h1
    have hb : ∃ s3, expect L .boolean s2 = .ok (boolWord b, s3) ∧ Laid ts s3 := by
      obtain ⟨s3, e3, h3⟩ := next_letters (L := L) (w := boolWord b) (by cases b <;> decide) (by cases b <;> decide) ht h2
      have hw : wordTok (boolWord b) = .boolean := by cases b <;> decide
      rw [hw] at e3
      refine ⟨s3, ?_, h3⟩
      unfold expect
      rw [e3]
      simp only [if_true]
    obtain ⟨s3, e3, h3⟩ := hb
    refine ⟨⟨boolWord b, .boolean, some .boolean, none, none⟩, s3, ?_, h3, fun _ => rfl⟩
    rw [e1, parseBoolean]
    simp only [e2, Res.bind_ok, e3, Res.map_ok]
  | contentType ct c x y hx hy =>
    obtain ⟨s1, e1, h1⟩ := named_read (w := "contentType".toList) (f := parseConfigured L .contentType .unknown) (by decide) (by decide) (by decide) rfl h
    rw [e1]
    exact configured_read hp.1 hp.2 hx hy h1
  | semver c x hx hs =>
    obtain ⟨s1, e1, h1⟩ := named_read (w := "semver".toList) (f := parseSemver L) (by decide) (by decide) (by decide) rfl h
    obtain ⟨s2, e2, h2⟩ := comma_read (L := L) h1
    obtain ⟨s3, e3, h3⟩ := string_read (L := L) hp hx h2
    refine ⟨⟨x, .string, some .semver, none, none⟩, s3, ?_, h3, fun _ => rfl⟩
    rw [e1, parseSemver]
    simp only [e2, Res.bind_ok, e3, hs, if_true]
  | ref n x hx =>
    obtain ⟨ws, s1, h1, rfl, h2⟩ := laid_cons h
    have e1 := next_single (L := L) (ws := ws) (r := s1) (c := '$') (t := .dollar) h1 (by simp)
    obtain ⟨s2, e2, h3⟩ := string_read (L := L) hp hx h2
    refine ⟨⟨x, .unknown, none, none, some ⟨x⟩⟩, s2, ?_, h3, fun _ => rfl⟩
    unfold parseRule
    simp only [nextOr_of e1, Res.bind_ok]
    unfold parseReference
    rw [e2]
    rfl

theorem bracketed_read {α : Type} {L : Lib} {p : Str → Res (α × Str)} {a : α} {us ts : List Str} {s : Str}
    (hp : ∀ s, Laid (us ++ rpar :: ts) s → ∃ s', p s = .ok (a, s') ∧ Laid (rpar :: ts) s')
    (h : Laid (lpar :: (us ++ rpar :: ts)) s) : ∃ s', bracketed L p s = .ok (a, s') ∧ Laid ts s' := by
  obtain ⟨s1, e1, h1⟩ := expect_lpar (L := L) h
  obtain ⟨s2, e2, h2⟩ := hp s1 h1
  obtain ⟨s3, e3, h3⟩ := expect_rpar (L := L) h2
  refine ⟨s3, ?_, h3⟩
  unfold bracketed
  simp only [e1, Res.bind_ok, e2, e3, Res.map_ok]

theorem length_read {L : Lib} {t : Str} {n : Nat} {ts : List Str} {s : Str} (ht : parseDigits usizeLim t = some n)
    (hs : StopW ts) (h : Laid (t :: ts) s) : ∃ s', parseLength L s = .ok (n, s') ∧ Laid ts s' := by
  obtain ⟨ws, s', h1, rfl, h2⟩ := laid_cons h
  have hst := laid_stop h2 hs
  refine ⟨s', ?_, h2⟩
  unfold parseLength expect
  rw [next_num h1 ht (stop_digit hst) (fun _ => fraction_none (stop_point hst))]
  simp only [if_true, Res.bind_ok, ht]

/-- Nesting depth. -/
def depth : Exp → Nat
  | .eachKey e => depth e + 1
  | .eachValue e => depth e + 1
  | _ => 0

theorem keyword_read {L : Lib} {w : Str} {us : List Str} {s : Str} (hl : w.all Char.isAlpha = true) (hn : w ≠ [])
    (h : Laid (w :: lpar :: us) s) :
    ∃ s', nextOr L s = .ok ⟨some (wordTok w), w, s'⟩ ∧ Laid (lpar :: us) s' := by
  obtain ⟨s1, e1, h1⟩ := next_letters (L := L) hl hn (stopW_lpar us) h
  exact ⟨s1, nextOr_of e1, h1⟩

theorem exp_read {L : Lib} {v : Str} : ∀ (e : Exp) (d : RuleDef) (n : Nat) (ts : List Str) (s : Str), PlainExp e →
    ExpMeans L v e d → depth e < n → Laid (expWords e ++ ts) s →
    ∃ s', exp L v n s = .ok (d, s') ∧ Laid ts s'
  | .matching r, d, 0, ts, s, _, _, hn, _ => absurd hn (by simp)
  | .notEmpty a, d, 0, ts, s, _, _, hn, _ => absurd hn (by simp)
  | .eachKey a, d, 0, ts, s, _, _, hn, _ => absurd hn (by simp)
  | .eachValue a, d, 0, ts, s, _, _, hn, _ => absurd hn (by simp)
  | .atLeast a, d, 0, ts, s, _, _, hn, _ => absurd hn (by simp)
  | .atMost a, d, 0, ts, s, _, _, hn, _ => absurd hn (by simp)
  | .matching r, d, n + 1, ts, s, hp, hd, _, h => by
    cases hd with
    | matching r x ty g m hr =>
      have h' : Laid ("matching".toList :: lpar :: (ruleWords r ++ rpar :: ts)) s := by
        simpa [expWords] using h
      obtain ⟨s1, e1, h1⟩ := keyword_read (L := L) (by decide) (by decide) h'
      obtain ⟨s2, e2, h2⟩ := expect_lpar (L := L) h1
      obtain ⟨p, s3, e3, h3, h4⟩ := rule_read hp hr (stopW_par ts) h2
      obtain ⟨s4, e4, h5⟩ := expect_rpar (L := L) h3
      refine ⟨s4, ?_, h5⟩
      have hb : bracketed L (parseRule L) s1 = .ok (p, s4) := by
        unfold bracketed
        simp only [e2, Res.bind_ok, e3, e4, Res.map_ok]
      have hw : wordTok "matching".toList = .matching := by decide
      rw [exp, e1, Res.bind_ok]
      simp only [hw, hb, Res.bind_ok, h4 v, Res.map_ok]
  | .notEmpty a, d, n + 1, ts, s, hp, hd, _, h => by
    cases hd with
    | notEmpty a x ty g ha =>
      have h' : Laid ("notEmpty".toList :: lpar :: (argWords a ++ rpar :: ts)) s := by
        simpa [expWords] using h
      obtain ⟨s1, e1, h1⟩ := keyword_read (L := L) (by decide) (by decide) h'
      obtain ⟨s2, e2, h2⟩ := bracketed_read (L := L) (p := parsePrimitive L) (fun s hs => arg_read hp ha (stopW_par ts) hs) h1
      refine ⟨s2, ?_, h2⟩
      have hw : wordTok "notEmpty".toList = .notEmpty := by decide
      rw [exp, e1, Res.bind_ok]
      simp only [hw, e2, Res.map_ok]
  | .eachKey a, d, n + 1, ts, s, hp, hd, hn, h => by
    cases hd with
    | eachKey a d ha =>
      have h' : Laid ("eachKey".toList :: lpar :: (expWords a ++ rpar :: ts)) s := by
        simpa [expWords] using h
      obtain ⟨s1, e1, h1⟩ := keyword_read (L := L) (by decide) (by decide) h'
      obtain ⟨s2, e2, h2⟩ := bracketed_read (L := L) (p := exp L v n)
        (fun s hs => exp_read a d n (rpar :: ts) s hp ha (by simpa [depth] using hn) hs) h1
      refine ⟨s2, ?_, h2⟩
      have hw : wordTok "eachKey".toList = .eachKey := by decide
      rw [exp, e1, Res.bind_ok]
      simp only [hw, e2, Res.map_ok]
      rfl
  | .eachValue a, d, n + 1, ts, s, hp, hd, hn, h => by
    cases hd with
    | eachValue a d ha =>
      have h' : Laid ("eachValue".toList :: lpar :: (expWords a ++ rpar :: ts)) s := by
        simpa [expWords] using h
      obtain ⟨s1, e1, h1⟩ := keyword_read (L := L) (by decide) (by decide) h'
      obtain ⟨s2, e2, h2⟩ := bracketed_read (L := L) (p := exp L v n)
        (fun s hs => exp_read a d n (rpar :: ts) s hp ha (by simpa [depth] using hn) hs) h1
      refine ⟨s2, ?_, h2⟩
      have hw : wordTok "eachValue".toList = .eachValue := by decide
      rw [exp, e1, Res.bind_ok]
      simp only [hw, e2, Res.map_ok]
      rfl
  | .atLeast t, d, n + 1, ts, s, hp, hd, _, h => by
    cases hd with
    | atLeast t k hk =>
      have h' : Laid ("atLeast".toList :: lpar :: ([t] ++ rpar :: ts)) s := h
      obtain ⟨s1, e1, h1⟩ := keyword_read (L := L) (by decide) (by decide) h'
      obtain ⟨s2, e2, h2⟩ := bracketed_read (L := L) (p := parseLength L) (fun s hs => length_read hk (stopW_par ts) hs) h1
      refine ⟨s2, ?_, h2⟩
      have hw : wordTok "atLeast".toList = .atLeast := by decide
      rw [exp, e1, Res.bind_ok]
      simp only [hw, e2, Res.map_ok]
      rfl
  | .atMost t, d, n + 1, ts, s, hp, hd, _, h => by
    cases hd with
    | atMost t k hk =>
      have h' : Laid ("atMost".toList :: lpar :: ([t] ++ rpar :: ts)) s := h
      obtain ⟨s1, e1, h1⟩ := keyword_read (L := L) (by decide) (by decide) h'
      obtain ⟨s2, e2, h2⟩ := bracketed_read (L := L) (p := parseLength L) (fun s hs => length_read hk (stopW_par ts) hs) h1
      refine ⟨s2, ?_, h2⟩
      have hw : wordTok "atMost".toList = .atMost := by decide
      rw [exp, e1, Res.bind_ok]
      simp only [hw, e2, Res.map_ok]
      rfl

/-! ## Merging -/

theorem rank_injective : ∀ (a b : ValueType), rank a = rank b → a = b := by
  intro a b; cases a <;> cases b <;> decide

theorem mergeType_spec (a b : ValueType) :
    (mergeType a b = a ∨ mergeType a b = b) ∧ rank a ≤ rank (mergeType a b) ∧ rank b ≤ rank (mergeType a b) := by
  cases a <;> cases b <;> decide

/-- Several definitions are combined in exactly one way. -/
theorem combines_unique {v : Str} {ds : List RuleDef} {d d' : RuleDef} (h : Combines v ds d) (h' : Combines v ds d') :
    d = d' := by
  have ht : d.valueType = d'.valueType :=
    rank_injective _ _ (Nat.le_antisymm (h'.type_max _ h.type_mem) (h.type_max _ h'.type_mem))
  have h1 := h.value.trans h'.value.symm
  have h2 := h.rules.trans h'.rules.symm
  have h3 := h.generator.trans h'.generator.symm
  have h4 := h.expression.trans h'.expression.symm
  cases d
  cases d'
  simp only at ht h1 h2 h3 h4
  subst ht h1 h2 h3 h4
  rfl

theorem find_append {p : Str → Bool} (xs : List Str) (y : Str) :
    (xs ++ [y]).find? p = match xs.find? p with | some z => some z | none => if p y then some y else none := by
  rw [List.find?_append]
  cases xs.find? p with
  | some z => rfl
  | none =>
    rw [Option.none_or, List.find?_cons]
    cases p y <;> rfl

theorem combines_one {v : Str} {d : RuleDef} (h : d.expression = v) : Combines v [d] d where
  value := by
    cases hv : d.value with
    | nil => simp [hv]
    | cons c cs => simp [hv]
  type_mem := by simp
  type_max := by simp
  rules := by simp
  generator := by
    cases hg : d.generator with
    | none => simp [hg]
    | some g => simp [hg]
  expression := h

theorem combines_merge {v : Str} {ds : List RuleDef} {d e : RuleDef} (hv : v ≠ []) (h : Combines v ds d)
    (he : e.expression = v) : Combines v (ds ++ [e]) (merge d e) where
  value := by
    rw [List.map_append, List.map_singleton, find_append]
    have h1 := h.value
    unfold merge
    simp only
    cases hf : (ds.map (·.value)).find? (fun x => !x.isEmpty) with
    | some z =>
      rw [hf] at h1
      have hz := List.find?_some hf
      rw [if_neg, h1]
      rw [h1]
      simpa using hz
    | none =>
      rw [hf] at h1
      rw [h1]
      simp only [Option.getD_none, List.isEmpty_nil, if_true]
      cases hv : e.value with
      | nil => rfl
      | cons c cs => rfl
  type_mem := by
    rw [List.map_append, List.mem_append]
    rcases (mergeType_spec d.valueType e.valueType).1 with h1 | h1
    · exact Or.inl (by show mergeType _ _ ∈ _; rw [h1]; exact h.type_mem)
    · exact Or.inr (by show mergeType _ _ ∈ _; rw [h1]; simp)
  type_max := by
    intro t ht
    rw [List.map_append, List.mem_append] at ht
    have hs := mergeType_spec d.valueType e.valueType
    rcases ht with ht | ht
    · exact Nat.le_trans (h.type_max t ht) hs.2.1
    · have : t = e.valueType := by simpa using ht
      rw [this]
      exact hs.2.2
  rules := by
    rw [List.flatMap_append, ← h.rules]
    simp [merge]
  generator := by
    rw [List.filterMap_append, List.head?_append, ← h.generator]
    unfold merge
    cases d.generator with
    | some g => rfl
    | none =>
      simp only [Option.none_or]
      cases hg : e.generator with
      | none => simp [hg]
      | some g => simp [hg]
  expression := by
    show mergeText d.expression e.expression = v
    rw [h.expression, he]
    unfold mergeText
    cases v with
    | nil => exact absurd rfl hv
    | cons c cs => simp

theorem means_expression {L : Lib} {v : Str} {e : Exp} {d : RuleDef} (h : ExpMeans L v e d) : d.expression = v := by
  cases h <;> rfl

/-! ## Definitions -/

def weight (ts : List Str) : Nat := (ts.map List.length).sum

theorem laid_weight {ts : List Str} {s : Str} (h : Laid ts s) : weight ts ≤ s.length := by
  induction h with
  | nil ws _ => exact Nat.zero_le _
  | cons ws w ts s _ _ ih =>
    unfold weight at *
    rw [List.map_cons, List.sum_cons, List.length_append, List.length_append]
    omega

theorem weight_append (a b : List Str) : weight (a ++ b) = weight a + weight b := by
  unfold weight; rw [List.map_append, List.sum_append]

theorem depth_weight : ∀ (e : Exp), depth e ≤ weight (expWords e)
  | .matching _ => Nat.zero_le _
  | .notEmpty _ => Nat.zero_le _
  | .atLeast _ => Nat.zero_le _
  | .atMost _ => Nat.zero_le _
  | .eachKey e => by
    have ih := depth_weight e
    show depth e + 1 ≤ weight (["eachKey".toList, lpar] ++ (expWords e ++ [rpar]))
    rw [weight_append, weight_append]
    have : weight ["eachKey".toList, lpar] = 8 := by decide
    omega
  | .eachValue e => by
    have ih := depth_weight e
    show depth e + 1 ≤ weight (["eachValue".toList, lpar] ++ (expWords e ++ [rpar]))
    rw [weight_append, weight_append]
    have : weight ["eachValue".toList, lpar] = 10 := by decide
    omega

theorem depth_laid {e : Exp} {ts : List Str} {s : Str} (h : Laid (expWords e ++ ts) s) : depth e < s.length + 1 := by
  have h1 := laid_weight h
  rw [weight_append] at h1
  have := depth_weight e
  omega

theorem more_read {L : Lib} {v : Str} (hv : v ≠ []) : ∀ (es : List Exp) (ds ds' : List RuleDef) (d : RuleDef) (n : Nat)
    (s : Str), (∀ e ∈ es, PlainExp e) → AllMean L v es ds' → Combines v ds d → es.length < n →
    Laid (moreWords es) s → ∃ r, moreExps L v n d s = .ok r ∧ Combines v (ds ++ ds') r
  | [], ds, ds', d, 0, s, _, _, _, hn, _ => absurd hn (by simp)
  | _ :: _, ds, ds', d, 0, s, _, _, _, hn, _ => absurd hn (by simp)
  | [], ds, ds', d, n + 1, s, _, hm, hc, _, h => by
    cases hm
    refine ⟨d, ?_, by rwa [List.append_nil]⟩
    rw [moreExps, next_nil (laid_nil h)]
  | e :: es, ds, ds', d, n + 1, s, hp, hm, hc, hn, h => by
    cases hm with
    | cons _ _ x xs hx hxs =>
      obtain ⟨ws, s1, h1, rfl, h2⟩ := laid_cons (w := [',']) h
      have e1 := next_single (L := L) (ws := ws) (r := s1) (c := ',') (t := .comma) h1 (by simp)
      obtain ⟨s2, e2, h3⟩ := exp_read (L := L) e x (s1.length + 1) (moreWords es) s1 (hp e (by simp)) hx (depth_laid h2) h2
      obtain ⟨r, e3, h4⟩ := more_read hv es (ds ++ [x]) xs (merge d x) n s2 (fun e he => hp e (by simp [he])) hxs
        (combines_merge hv hc (means_expression hx)) (by simpa using hn) h3
      refine ⟨r, ?_, by simpa using h4⟩
      rw [moreExps, e1]
      simp only [e2, Res.bind_ok, e3]

theorem more_weight : ∀ (es : List Exp), es.length ≤ weight (moreWords es)
  | [] => Nat.zero_le _
  | e :: es => by
    have ih := more_weight es
    show es.length + 1 ≤ weight ([comma] ++ (expWords e ++ moreWords es))
    rw [weight_append, weight_append]
    have : weight [comma] = 1 := by decide
    omega

/-- C82.  A definition written as documented, with any white space between its words, is read as the
definition it stands for. -/
theorem C82_documented_partial {L : Lib} {v : Str} {e : Exp} {es : List Exp} {ds : List RuleDef} {d : RuleDef}
    (hp : ∀ x ∈ e :: es, PlainExp x) (hm : AllMean L v (e :: es) ds) (hd : Combines v ds d)
    (hl : Laid (defWords e es) v) : parse L v = .ok d := by
  have hw := laid_weight hl
  have hne : 0 < weight (expWords e) := by
    cases e <;> simp [expWords, weight] <;> omega
  have hv : v ≠ [] := by
    rintro rfl
    unfold defWords at hw
    rw [weight_append] at hw
    simp at hw
    omega
  cases hm with
  | cons _ _ x xs hx hxs =>
    obtain ⟨s1, e1, h1⟩ := exp_read (L := L) e x (v.length + 1) (moreWords es) v (hp e (by simp)) hx (depth_laid hl) hl
    have hlen : es.length < v.length + 1 := by
      have := more_weight es
      unfold defWords at hw
      rw [weight_append] at hw
      omega
    obtain ⟨r, e2, h2⟩ := more_read hv es [x] xs x (v.length + 1) s1 (fun e he => hp e (by simp [he])) hxs
      (combines_one (means_expression hx)) hlen h1
    have : d = r := combines_unique hd h2
    subst this
    unfold parse
    rw [if_neg (by rw [List.isEmpty_iff]; exact hv), e1, Res.bind_ok]
    exact e2

/-! ## Nothing else is accepted -/

/-- The literal is one that the parser takes: quotes only after a backslash, a whole number that fits, and after
the point of a decimal number anything. -/
def LooseLit : Lit → Prop
  | .str c => guarded false c = true
  | .null => True
  | .whole t => WholeOk t
  | .dec t => DecLoose t
  | .bool _ => True

def LooseArg : Arg → Prop
  | .lit l => LooseLit l
  | .state e l => guarded false e = true ∧ LooseLit l

/-- The word of a provider state expression in a date or time: it only has to start with `fromProviderState`. -/
def LooseTimed : Timed → Prop
  | .str c => guarded false c = true
  | .state w e l => (w.all Char.isAlpha = true ∧ fps <+: w) ∧ guarded false e = true ∧ LooseLit l

def LooseRule : Rule → Prop
  | .equalTo a => LooseArg a
  | .type a => LooseArg a
  | .regex r c => guarded false r = true ∧ guarded false c = true
  | .datetime f t => guarded false f = true ∧ LooseTimed t
  | .date f t => guarded false f = true ∧ LooseTimed t
  | .time f t => guarded false f = true ∧ LooseTimed t
  | .includes c => guarded false c = true
  | .number a => LooseArg a ∧ a.numeric
  | .integer a => LooseArg a ∧ a.integral
  | .decimal a => LooseArg a ∧ a.numeric
  | .boolean _ => True
  | .contentType ct c => guarded false ct = true ∧ guarded false c = true
  | .semver c => guarded false c = true
  | .ref n => guarded false n = true

def LooseExp : Exp → Prop
  | .matching r => LooseRule r
  | .notEmpty a => LooseArg a
  | .eachKey e => LooseExp e
  | .eachValue e => LooseExp e
  | .atLeast t => ∃ n, parseDigits usizeLim t = some n
  | .atMost t => ∃ n, parseDigits usizeLim t = some n

/-- The words in order with any white space before each, and then the rest. -/
inductive Pre : List Str → Str → Str → Prop where
  | nil (s : Str) : Pre [] s s
  | cons (ws w : Str) (ts : List Str) (s r : Str) : (∀ c ∈ ws, c ∈ [' ', '\t', '\n', '\x0c']) → Pre ts s r →
      Pre (w :: ts) (ws ++ (w ++ s)) r

theorem pre_append {a b : List Str} {s t u : Str} (h : Pre a s t) (h' : Pre b t u) : Pre (a ++ b) s u := by
  induction h with
  | nil s => exact h'
  | cons ws w ts s r hw _ ih => exact .cons ws w (ts ++ b) s u hw (ih h')

theorem pre_one {w s r ws : Str} (hw : ∀ c ∈ ws, c ∈ [' ', '\t', '\n', '\x0c']) (h : s = ws ++ (w ++ r)) : Pre [w] s r := by
  subst h
  exact .cons ws w [] r r hw (.nil r)

theorem pre_cons {w : Str} {ts : List Str} {s t u : Str} (h : Pre [w] s t) (h' : Pre ts t u) : Pre (w :: ts) s u :=
  pre_append h h'

theorem pre_laid {ts : List Str} {s r : Str} (h : Pre ts s r) : ∃ t, s = t ++ r ∧
    ∀ ws, (∀ c ∈ ws, c ∈ [' ', '\t', '\n', '\x0c']) → Laid ts (t ++ ws) := by
  induction h with
  | nil s => exact ⟨[], rfl, fun ws hw => .nil ws hw⟩
  | cons ws w ts s r hw _ ih =>
    obtain ⟨t, h1, h2⟩ := ih
    refine ⟨ws ++ (w ++ t), by rw [h1]; simp, ?_⟩
    intro ws' hw'
    have := Laid.cons ws w ts _ hw (h2 ws' hw')
    simpa using this

theorem takeWhile_true {p : Char → Bool} (s : Str) : ∀ c ∈ s.takeWhile p, p c = true := by
  induction s with
  | nil => intro c hc; cases hc
  | cons x xs ih =>
    intro c hc
    cases hx : p x with
    | true =>
      rw [List.takeWhile_cons_of_pos hx] at hc
      rcases List.mem_cons.1 hc with rfl | hc
      · exact hx
      · exact ih c hc
    | false =>
      rw [List.takeWhile_cons_of_neg (by simp [hx])] at hc
      cases hc

/-- What comes before a token. -/
theorem next_inv {L : Lib} {s : Str} {l : Lexeme} (h : next L s = some l) :
    ∃ ws c cs, (∀ c ∈ ws, c ∈ [' ', '\t', '\n', '\x0c']) ∧ s = ws ++ c :: cs ∧ skip c = false ∧ l = token L c cs := by
  unfold next at h
  split at h
  · cases h
  · rename_i c cs hd
    injection h with h
    refine ⟨s.takeWhile skip, c, cs, ?_, ?_, ?_, h.symm⟩
    · intro c hc
      exact (skip_iff c).1 (takeWhile_true s c hc)
    · rw [← hd, List.takeWhile_append_dropWhile]
    · have : ∀ (s : Str) (c : Char) (cs : Str), s.dropWhile skip = c :: cs → skip c = false := by
        intro s
        induction s with
        | nil => intro c cs h; cases h
        | cons x xs ih =>
          intro c cs h
          cases hx : skip x with
          | true => rw [List.dropWhile_cons_of_pos hx] at h; exact ih c cs h
          | false =>
            rw [List.dropWhile_cons_of_neg (by simp [hx])] at h
            injection h with h _
            rw [← h]; exact hx
      exact this s c cs hd

theorem next_none {L : Lib} {s : Str} (h : next L s = none) : ∀ c ∈ s, c ∈ [' ', '\t', '\n', '\x0c'] := by
  unfold next at h
  split at h
  · rename_i hd
    intro c hc
    rw [← List.takeWhile_append_dropWhile (p := skip) (l := s), hd, List.append_nil] at hc
    exact (skip_iff c).1 (takeWhile_true s c hc)
  · cases h

theorem strEnd_inv : ∀ (s : Str) (esc : Bool) (a r : Str), strEnd esc s = some (a, r) →
    ∃ c, a = c ++ ['\''] ∧ guarded esc c = true ∧ s = a ++ r
  | [], _, _, _, h => by cases h
  | x :: xs, esc, a, r, h => by
    rw [strEnd] at h
    split at h
    · rename_i hx
      subst hx
      split at h
      · rename_i he
        split at h
        · rename_i a' r' hs
          injection h with h
          injection h with h1 h2
          obtain ⟨c, e1, e2, e3⟩ := strEnd_inv xs false a' r' hs
          subst h1 h2
          exact ⟨'\'' :: c, by rw [e1]; rfl, by rw [guarded, if_pos rfl, he, e2]; rfl, by rw [e3]; rfl⟩
        · injection h with h
          injection h with h1 h2
          subst h1 h2
          exact ⟨[], rfl, rfl, rfl⟩
      · injection h with h
        injection h with h1 h2
        subst h1 h2
        exact ⟨[], rfl, rfl, rfl⟩
    · rename_i hx
      cases hs : strEnd (x == '\\') xs with
      | none => rw [hs] at h; cases h
      | some p =>
        rw [hs] at h
        obtain ⟨a', r'⟩ := p
        injection h with h
        injection h with h1 h2
        obtain ⟨c, e1, e2, e3⟩ := strEnd_inv xs _ a' r' hs
        subst h1 h2
        exact ⟨x :: c, by rw [e1]; rfl, by rw [guarded, if_neg hx]; exact e2, by rw [e3]; rfl⟩

theorem fraction_inv {s f r : Str} (h : fraction s = some (f, r)) :
    s = f ++ r ∧ ∃ ds, f = '.' :: ds ∧ ds ≠ [] ∧ ∀ c ∈ ds, c.isDigit = true := by
  unfold fraction at h
  split at h
  · rename_i s'
    split at h
    · cases h
    · rename_i he
      injection h with h
      injection h with h1 h2
      subst h1 h2
      refine ⟨?_, _, rfl, ?_, takeWhile_true s'⟩
      · rw [List.cons_append, List.takeWhile_append_dropWhile]
      · intro e
        rw [e] at he
        exact he rfl
  · cases h

/-- The texts of the tokens. -/
def Shape : Tok → Str → Prop
  | .string, x => ∃ c, x = quoted c ∧ guarded false c = true
  | .leftBracket, x => x = lpar
  | .rightBracket, x => x = rpar
  | .comma, x => x = comma
  | .dollar, x => x = ['$']
  | .num, x => ∃ n, parseDigits usizeLim x = some n
  | .int, x => ∃ ds n, x = '-' :: ds ∧ parseDigits (i64Lim + 1) ds = some n
  | .decimal, x => DecOk x
  | .decimalPart, x => ∃ ds, x = '.' :: ds
  | t, x => x.all Char.isAlpha = true ∧ wordTok x = t

theorem shape_word {x : Str} (h : x.all Char.isAlpha = true) : Shape (wordTok x) x := by
  have hw : ∀ t, Json.lookup x keywords = some t → t ∈ [Tok.matching, .notEmpty, .eachKey, .eachValue, .atLeast, .atMost,
      .boolean, .null] := by
    intro t ht
    have := Json.lookup_mem ht
    simp only [keywords, List.mem_cons, Prod.mk.injEq, List.not_mem_nil, or_false] at this
    rcases this with ⟨_, rfl⟩ | ⟨_, rfl⟩ | ⟨_, rfl⟩ | ⟨_, rfl⟩ | ⟨_, rfl⟩ | ⟨_, rfl⟩ | ⟨_, rfl⟩ | ⟨_, rfl⟩ | ⟨_, rfl⟩ <;> decide
  have e : ∀ t, wordTok x = t → t ∈ [Tok.matching, .notEmpty, .eachKey, .eachValue, .atLeast, .atMost,
      .boolean, .null, .id] := by
    intro t ht
    unfold wordTok at ht
    cases hl : Json.lookup x keywords with
    | none => rw [hl] at ht; rw [← ht]; decide
    | some t' =>
      rw [hl] at ht
      have := hw t' hl
      have ht' : t' = t := ht
      subst ht'
      simp only [List.mem_cons, List.not_mem_nil, or_false] at this ⊢
      rcases this with h | h | h | h | h | h | h | h <;> simp [h]
  have := e _ rfl
  generalize ht : wordTok x = t at this
  simp only [List.mem_cons, List.not_mem_nil, or_false] at this
  rcases this with rfl | rfl | rfl | rfl | rfl | rfl | rfl | rfl | rfl <;> exact ⟨h, ht⟩

theorem number_inv (s : Str) (hc : ∃ c cs, s = c :: cs ∧ c.isDigit = true) :
    s = (number s).text ++ (number s).rest ∧ ∀ t, (number s).tok = some t → Shape t (number s).text := by
  obtain ⟨c, cs, rfl, hc⟩ := hc
  have hts := takeWhile_true (p := Char.isDigit) (c :: cs)
  have hne : (c :: cs).takeWhile Char.isDigit ≠ [] := by rw [List.takeWhile_cons_of_pos hc]; simp
  unfold number
  simp only
  split
  · rename_i f r' hf
    split at hf
    · rename_i h1
      obtain ⟨e1, ds, e2, e3, e4⟩ := fraction_inv hf
      refine ⟨?_, ?_⟩
      · rw [List.append_assoc, ← e1, List.takeWhile_append_dropWhile]
      · intro t ht
        injection ht with ht
        subst ht
        obtain ⟨d, hd⟩ := List.length_eq_one_iff.1 h1
        refine ⟨_, ds, by rw [e2], Or.inl ?_, e3, e4⟩
        have hdd : d.isDigit = true := hts d (by rw [hd]; simp)
        rw [hd]
        have := digitsVal_isSome [d] (by simpa using hdd) 0
        obtain ⟨n, hn⟩ := this
        have hb := digitsVal_bound [d] 0 n hn
        refine ⟨n, ?_⟩
        unfold parseDigits
        rw [hn]
        simp at hb
        have : n < usizeLim := by unfold usizeLim; omega
        simp [this]
    · cases hf
  · refine ⟨by rw [List.takeWhile_append_dropWhile], ?_⟩
    intro t ht
    simp only at ht
    split at ht
    · rename_i hp
      injection ht with ht
      subst ht
      exact Option.isSome_iff_exists.1 hp
    · cases ht

theorem negative_inv (L : Lib) (s : Str) :
    '-' :: s = (negative L s).text ++ (negative L s).rest ∧ ∀ t, (negative L s).tok = some t → Shape t (negative L s).text := by
  have hts := takeWhile_true (p := Char.isDigit) s
  unfold negative
  simp only
  split
  · exact ⟨by simp [illegal], fun t ht => by cases ht⟩
  · split
    · rename_i f r' hf
      split at hf
      · rename_i h1
        obtain ⟨e1, ds, e2, e3, e4⟩ := fraction_inv hf
        refine ⟨?_, ?_⟩
        · simp only [List.cons_append, List.append_assoc]
          rw [← e1, List.takeWhile_append_dropWhile]
        · intro t ht
          injection ht with ht
          subst ht
          obtain ⟨d, hd⟩ := List.length_eq_one_iff.1 h1
          refine ⟨'-' :: s.takeWhile Char.isDigit, ds, by rw [e2], Or.inr ?_, e3, e4⟩
          have hdd : d.isDigit = true := hts d (by rw [hd]; simp)
          rw [hd]
          have := digitsVal_isSome [d] (by simpa using hdd) 0
          obtain ⟨n, hn⟩ := this
          have hb := digitsVal_bound [d] 0 n hn
          refine ⟨[d], n, rfl, ?_⟩
          unfold parseDigits
          rw [hn]
          simp at hb
          have : n < i64Lim + 1 := by unfold i64Lim; omega
          simp [this]
      · cases hf
    · refine ⟨by simp [List.takeWhile_append_dropWhile], ?_⟩
      intro t ht
      simp only at ht
      split at ht
      · rename_i hp
        injection ht with ht
        subst ht
        obtain ⟨n, hn⟩ := Option.isSome_iff_exists.1 hp
        exact ⟨_, n, rfl, hn⟩
      · cases ht

theorem token_inv (L : Lib) (c : Char) (cs : Str) :
    c :: cs = (token L c cs).text ++ (token L c cs).rest ∧ ∀ t, (token L c cs).tok = some t → Shape t (token L c cs).text := by
  have hill : ∀ s, s = (illegal L s).text ++ (illegal L s).rest ∧ ∀ t, (illegal L s).tok = some t → Shape t (illegal L s).text :=
    fun s => ⟨by simp [illegal], fun t ht => by cases ht⟩
  unfold token
  split
  · refine ⟨by simp [word, List.takeWhile_append_dropWhile], ?_⟩
    intro t ht
    simp only [word, Option.some.injEq] at ht
    subst ht
    exact shape_word (List.all_eq_true.2 (takeWhile_true (c :: cs)))
  split
  · rename_i hd
    exact number_inv (c :: cs) ⟨c, cs, rfl, hd⟩
  split
  · rename_i hc; subst hc; exact ⟨rfl, fun t ht => by injection ht with ht; subst ht; rfl⟩
  split
  · rename_i hc; subst hc; exact ⟨rfl, fun t ht => by injection ht with ht; subst ht; rfl⟩
  split
  · rename_i hc; subst hc; exact ⟨rfl, fun t ht => by injection ht with ht; subst ht; rfl⟩
  split
  · rename_i hc; subst hc; exact ⟨rfl, fun t ht => by injection ht with ht; subst ht; rfl⟩
  split
  · rename_i hc
    subst hc
    unfold string
    split
    · rename_i a r hs
      obtain ⟨c, e1, e2, e3⟩ := strEnd_inv cs false a r hs
      refine ⟨by rw [e3]; rfl, ?_⟩
      intro t ht
      injection ht with ht
      subst ht
      exact ⟨c, by rw [e1]; rfl, e2⟩
    · exact hill _
  split
  · rename_i hc; subst hc; exact negative_inv L cs
  split
  · rename_i hc
    subst hc
    unfold point
    split
    · rename_i f r hf
      obtain ⟨e1, ds, e2, _⟩ := fraction_inv hf
      refine ⟨e1, ?_⟩
      intro t ht
      injection ht with ht
      subst ht
      exact ⟨ds, e2⟩
    · exact hill _
  · exact hill _

/-- A token is its text after white space, and the rest. -/
theorem next_pre {L : Lib} {s : Str} {l : Lexeme} (h : next L s = some l) : Pre [l.text] s l.rest := by
  obtain ⟨ws, c, cs, h1, h2, _, rfl⟩ := next_inv h
  exact pre_one h1 (by rw [h2, ← (token_inv L c cs).1])

theorem next_shape {L : Lib} {s : Str} {l : Lexeme} {t : Tok} (h : next L s = some l) (ht : l.tok = some t) :
    Shape t l.text := by
  obtain ⟨ws, c, cs, _, _, _, rfl⟩ := next_inv h
  exact (token_inv L c cs).2 t ht

theorem bind_eq_ok {α β : Type} {r : Res α} {f : α → Res β} {b : β} : r.bind f = .ok b ↔ ∃ a, r = .ok a ∧ f a = .ok b := by
  cases r <;> simp [Res.bind]

theorem expect_inv {L : Lib} {t : Tok} {s x r : Str} (h : expect L t s = .ok (x, r)) : Shape t x ∧ Pre [x] s r := by
  unfold expect at h
  split at h
  · cases h
  · rename_i l hl
    split at h
    · rename_i ht
      injection h with h
      injection h with h1 h2
      subst h1 h2
      exact ⟨next_shape hl ht, next_pre hl⟩
    · cases h

theorem nextOr_inv {L : Lib} {s : Str} {l : Lexeme} (h : nextOr L s = .ok l) : next L s = some l := by
  unfold nextOr at h
  split at h
  · cases h
  · rename_i l' hl
    injection h with h
    rw [hl, h]

theorem string_inv {L : Lib} {s x r : Str} (h : parseString L s = .ok (x, r)) :
    ∃ c, guarded false c = true ∧ Says c x ∧ Pre [quoted c] s r := by
  unfold parseString at h
  obtain ⟨⟨t, r'⟩, h1, h2⟩ := bind_eq_ok.1 h
  obtain ⟨⟨c, hc, hg⟩, hp⟩ := expect_inv h1
  subst hc
  obtain ⟨y, h3, h4⟩ := Res.map_eq_ok.1 h2
  injection h4 with h4 h5
  subst h4 h5
  refine ⟨c, hg, ?_, hp⟩
  rw [trim_quoted] at h3
  exact (unescape_iff _ _).1 h3

theorem comma_inv {L : Lib} {s r : Str} (h : parseComma L s = .ok r) : Pre [comma] s r := by
  unfold parseComma at h
  obtain ⟨⟨x, r'⟩, h1, h2⟩ := Res.map_eq_ok.1 h
  obtain ⟨hx, hp⟩ := expect_inv h1
  have hx' : x = comma := hx
  have h2' : r' = r := h2
  subst hx' h2'
  exact hp

theorem lpar_inv {L : Lib} {s x r : Str} (h : expect L .leftBracket s = .ok (x, r)) : Pre [lpar] s r := by
  obtain ⟨hx, hp⟩ := expect_inv h
  have hx' : x = lpar := hx
  subst hx'
  exact hp

theorem rpar_inv {L : Lib} {s x r : Str} (h : expect L .rightBracket s = .ok (x, r)) : Pre [rpar] s r := by
  obtain ⟨hx, hp⟩ := expect_inv h
  have hx' : x = rpar := hx
  subst hx'
  exact hp

theorem pre_split {t f s r r' : Str} (h : Pre [t] s r) (hr : r = f ++ r') : Pre [t ++ f] s r' := by
  cases h with
  | cons ws w ts s0 r0 hw h0 =>
    cases h0
    refine pre_one hw ?_
    rw [hr, List.append_assoc]

theorem part_inv {L : Lib} {r : Str} {p : Res (Str × Str)} {f r' : Str} (h : decimalPart L r = some p)
    (hp : p = .ok (f, r')) : r = f ++ r' ∧ ∃ x, f = '.' :: x := by
  unfold decimalPart at h
  split at h
  · rename_i hd
    injection h with h
    subst h
    split at hp
    · cases hp
    · rename_i l hl
      injection hp with hp
      injection hp with h1 h2
      subst h1 h2
      obtain ⟨ws, c, cs, g1, g2, g3, g4⟩ := next_inv hl
      cases r with
      | nil => cases hd
      | cons y ys =>
        have hy : y = '.' := by simpa using hd
        subst hy
        cases ws with
        | cons w ws =>
          injection g2 with g2 _
          have := g1 w (by simp)
          rw [← g2] at this
          exact absurd this (by decide)
        | nil =>
          injection g2 with g2 g2'
          subst g2 g2' g4
          refine ⟨(token_inv L '.' ys).1, ?_⟩
          show ∃ x, (point L ('.' :: ys)).text = '.' :: x
          unfold point
          split
          · rename_i f r hf
            obtain ⟨_, ds, e, _⟩ := fraction_inv hf
            exact ⟨ds, e⟩
          · exact ⟨_, rfl⟩
  · cases h

theorem whole_inv {L : Lib} {a b : ValueType} {t s r : Str} {v : Value} {s' : Str} (ht : WholeOk t) (hp : Pre [t] s r)
    (h : wholeOr L a b t r = .ok (v, s')) :
    (v = (t, a, none) ∧ Pre [t] s s') ∨ (∃ t', DecLoose t' ∧ v = (t', b, none) ∧ Pre [t'] s s') := by
  unfold wholeOr at h
  split at h
  · rename_i p hd
    obtain ⟨⟨f, r'⟩, h1, h2⟩ := Res.map_eq_ok.1 h
    injection h2 with h2 h3
    subst h2 h3
    obtain ⟨e1, x, e2⟩ := part_inv hd h1
    refine Or.inr ⟨t ++ f, ⟨t, x, by rw [e2], ht⟩, rfl, pre_split hp e1⟩
  · injection h with h
    injection h with h1 h2
    subst h1 h2
    exact Or.inl ⟨rfl, hp⟩

theorem bool_word {x : Str} (h : wordTok x = .boolean) : ∃ b, x = boolWord b := by
  unfold wordTok at h
  cases hl : Json.lookup x keywords with
  | none => rw [hl] at h; cases h
  | some t =>
    rw [hl] at h
    have ht : t = .boolean := h
    subst ht
    have := Json.lookup_mem hl
    simp only [keywords, List.mem_cons, Prod.mk.injEq, List.not_mem_nil, or_false, reduceCtorEq, and_false, false_or,
      and_true] at this
    rcases this with h | h
    · exact ⟨true, h⟩
    · exact ⟨false, h⟩

theorem null_word {x : Str} (h : wordTok x = .null) : x = "null".toList := by
  unfold wordTok at h
  cases hl : Json.lookup x keywords with
  | none => rw [hl] at h; cases h
  | some t =>
    rw [hl] at h
    have ht : t = .null := h
    subst ht
    have := Json.lookup_mem hl
    simp only [keywords, List.mem_cons, Prod.mk.injEq, List.not_mem_nil, or_false, reduceCtorEq, and_false, false_or,
      and_true] at this
    exact this

theorem dec_loose {t : Str} (h : DecOk t) : DecLoose t := by
  obtain ⟨w, ds, h1, h2, _⟩ := h
  exact ⟨w, ds, h1, h2⟩

theorem lit_inv {L : Lib} {s : Str} {l : Lexeme} {v : Value} {s' : Str} (hn : next L s = some l)
    (h : parseLiteral L l = .ok (v, s')) :
    ∃ x, LooseLit x ∧ v = (litText x, litType x, none) ∧ Pre [litWord x] s s' := by
  have hpre := next_pre hn
  unfold parseLiteral at h
  split at h
  · rename_i ht
    injection h with h
    injection h with h1 h2
    obtain ⟨c, hc, hg⟩ := next_shape hn ht
    refine ⟨.str c, hg, ?_, ?_⟩
    · rw [← h1, hc, trim_quoted]; rfl
    · rw [← h2]
      rw [hc] at hpre
      exact hpre
  · rename_i ht
    injection h with h
    injection h with h1 h2
    refine ⟨.null, trivial, h1.symm, ?_⟩
    have := null_word (next_shape hn ht).2
    rw [← h2]
    rw [this] at hpre
    exact hpre
  · rename_i ht
    rcases whole_inv (Or.inr (next_shape hn ht)) hpre h with ⟨h1, h2⟩ | ⟨t', h1, h2, h3⟩
    · exact ⟨.whole l.text, Or.inr (next_shape hn ht), h1, h2⟩
    · exact ⟨.dec t', h1, h2, h3⟩
  · rename_i ht
    rcases whole_inv (Or.inl (next_shape hn ht)) hpre h with ⟨h1, h2⟩ | ⟨t', h1, h2, h3⟩
    · exact ⟨.whole l.text, Or.inl (next_shape hn ht), h1, h2⟩
    · exact ⟨.dec t', h1, h2, h3⟩
  · rename_i ht
    injection h with h
    injection h with h1 h2
    exact ⟨.dec l.text, dec_loose (next_shape hn ht), h1.symm, by rw [← h2]; exact hpre⟩
  · rename_i ht
    injection h with h
    injection h with h1 h2
    obtain ⟨b, hb⟩ := bool_word (next_shape hn ht).2
    refine ⟨.bool b, trivial, ?_, ?_⟩
    · rw [← h1, hb]; rfl
    · rw [← h2]
      rw [hb] at hpre
      exact hpre
  · cases h

theorem state_inv {L : Lib} {s : Str} {v : Value} {s' : Str} (h : fromProviderState L s = .ok (v, s')) :
    ∃ e x l, guarded false e = true ∧ LooseLit l ∧ Says e x ∧
      v = (litText l, litType l, some (.providerState x (some (litData l)))) ∧
      Pre [lpar, quoted e, comma, litWord l, rpar] s s' := by
  unfold fromProviderState at h
  obtain ⟨⟨x1, s1⟩, a1, h⟩ := bind_eq_ok.1 h
  obtain ⟨⟨x2, s2⟩, a2, h⟩ := bind_eq_ok.1 h
  obtain ⟨s3, a3, h⟩ := bind_eq_ok.1 h
  obtain ⟨l, a4, h⟩ := bind_eq_ok.1 h
  obtain ⟨⟨⟨y, ty, g⟩, s5⟩, a5, h⟩ := bind_eq_ok.1 h
  obtain ⟨⟨x6, s6⟩, a6, h⟩ := Res.map_eq_ok.1 h
  injection h with h1 h2
  subst h1 h2
  obtain ⟨e, g1, g2, g3⟩ := string_inv a2
  obtain ⟨lit, k1, k2, k3⟩ := lit_inv (nextOr_inv a4) a5
  injection k2 with k2 k4
  injection k4 with k4 _
  subst k2 k4
  refine ⟨e, x2, lit, g1, k1, g2, by rw [dataType_lit], ?_⟩
  exact pre_cons (lpar_inv a1) (pre_cons g3 (pre_cons (comma_inv a3) (pre_cons k3 (rpar_inv a6))))

theorem fps_inv {L : Lib} {s : Str} {l : Lexeme} (hn : next L s = some l) (h : isFps l = true) : Pre [fps] s l.rest := by
  unfold isFps at h
  rw [Bool.and_eq_true] at h
  have : l.text = fps := by simpa using h.2
  have hp := next_pre hn
  rwa [this] at hp

theorem arg_inv {L : Lib} {s : Str} {v : Value} {s' : Str} (h : parsePrimitive L s = .ok (v, s')) :
    ∃ a, LooseArg a ∧ ArgMeans a v ∧ Pre (argWords a) s s' := by
  unfold parsePrimitive at h
  obtain ⟨l, a1, h⟩ := bind_eq_ok.1 h
  have hn := nextOr_inv a1
  split at h
  · rename_i hf
    obtain ⟨e, x, lit, g1, g2, g3, g4, g5⟩ := state_inv h
    subst g4
    exact ⟨.state e lit, ⟨g1, g2⟩, .state e x lit g3, pre_cons (fps_inv hn hf) g5⟩
  · obtain ⟨x, g1, g2, g3⟩ := lit_inv hn h
    subst g2
    exact ⟨.lit x, g1, .lit x, g3⟩

/-- A provider state expression in place of a number. -/
theorem num_state_inv {L : Lib} {s : Str} {l : Lexeme} {v : Value} {s' : Str} (ty : ValueType) (hn : next L s = some l)
    (hf : isFps l = true) (h : fromProviderState L l.rest = .ok (v, s')) :
    ∃ a, LooseArg a ∧ a.isLit = false ∧ NumMeans ty a v ∧ Pre (argWords a) s s' ∧ a.numeric ∧ a.integral := by
  obtain ⟨e, x, lit, g1, g2, g3, g4, g5⟩ := state_inv h
  subst g4
  exact ⟨.state e lit, ⟨g1, g2⟩, rfl, .state e x lit g3, pre_cons (fps_inv hn hf) g5, trivial, trivial⟩

/-- A whole or decimal number as a number. -/
theorem num_whole_inv {L : Lib} {s : Str} {l : Lexeme} {v : Value} {s' : Str} (ty : ValueType) (hn : next L s = some l)
    (ht : WholeOk l.text) (h : wholeOr L ty ty l.text l.rest = .ok (v, s')) :
    ∃ a, LooseArg a ∧ a.isLit = true ∧ NumMeans ty a v ∧ Pre (argWords a) s s' ∧ a.numeric := by
  rcases whole_inv ht (next_pre hn) h with ⟨h1, h2⟩ | ⟨t', h1, h2, h3⟩
  · subst h1
    exact ⟨.lit (.whole l.text), ht, rfl, .lit (.whole l.text), h2, trivial⟩
  · subst h2
    exact ⟨.lit (.dec t'), h1, rfl, .lit (.dec t'), h3, trivial⟩

theorem num_dec_inv {L : Lib} {s : Str} {l : Lexeme} (ty : ValueType) (hn : next L s = some l) (ht : l.tok = some .decimal) :
    ∃ a, LooseArg a ∧ a.isLit = true ∧ NumMeans ty a (l.text, ty, none) ∧ Pre (argWords a) s l.rest ∧ a.numeric :=
  ⟨.lit (.dec l.text), dec_loose (next_shape hn ht), rfl, .lit (.dec l.text), next_pre hn, trivial⟩

/-- What a rule parser has read: a rule that means what it hands over. -/
def Read (L : Lib) (r : Rule) (p : Parts) (s s' : Str) : Prop :=
  LooseRule r ∧ Pre (ruleWords r) s s' ∧ ∃ v m, RuleMeans L r v m ∧ Hands p v m

theorem withRule_eq {m : MatchingRule} {q : Value × Str} {p : Parts} {s' : Str} (h : withRule m q = (p, s')) :
    Hands p q.1 (.inl m) ∧ q.2 = s' := by
  obtain ⟨⟨v, ty, g⟩, r⟩ := q
  injection h with h1 h2
  subst h1 h2
  exact ⟨fun _ => rfl, rfl⟩

theorem any_inv {L : Lib} {m : MatchingRule} {f : Arg → Rule} {w : Str} {s s1 s' : Str} {p : Parts}
    (h : parseAny L m s1 = .ok (p, s')) (hw : Pre [w] s s1)
    (hf : ∀ a, ruleWords (f a) = w :: comma :: argWords a) (hl : ∀ a, LooseRule (f a) ↔ LooseArg a)
    (hm : ∀ a v, ArgMeans a v → RuleMeans L (f a) v (.inl m)) : ∃ r, Read L r p s s' := by
  unfold parseAny at h
  obtain ⟨s2, a1, h⟩ := bind_eq_ok.1 h
  obtain ⟨q, a2, h⟩ := Res.map_eq_ok.1 h
  obtain ⟨h1, h2⟩ := withRule_eq h
  obtain ⟨a, g1, g2, g3⟩ := arg_inv (L := L) (v := q.1) (s' := q.2) a2
  subst h2
  refine ⟨f a, (hl a).2 g1, ?_, q.1, .inl m, hm a _ g2, h1⟩
  rw [hf]
  exact pre_cons hw (pre_cons (comma_inv a1) g3)

theorem configured_inv {L : Lib} {m : Str → MatchingRule} {ty : ValueType} {f : Str → Str → Rule} {w : Str} {s s1 s' : Str}
    {p : Parts} (h : parseConfigured L m ty s1 = .ok (p, s')) (hw : Pre [w] s s1)
    (hf : ∀ a b, ruleWords (f a b) = [w, comma, quoted a, comma, quoted b])
    (hl : ∀ a b, LooseRule (f a b) ↔ (guarded false a = true ∧ guarded false b = true))
    (hm : ∀ a b x y, Says a x → Says b y → RuleMeans L (f a b) (y, ty, none) (.inl (m x))) : ∃ r, Read L r p s s' := by
  unfold parseConfigured at h
  obtain ⟨s2, a1, h⟩ := bind_eq_ok.1 h
  obtain ⟨⟨c, s3⟩, a2, h⟩ := bind_eq_ok.1 h
  obtain ⟨s4, a3, h⟩ := bind_eq_ok.1 h
  obtain ⟨⟨d, s5⟩, a4, h⟩ := Res.map_eq_ok.1 h
  injection h with h1 h2
  subst h1 h2
  obtain ⟨a, g1, g2, g3⟩ := string_inv a2
  obtain ⟨b, k1, k2, k3⟩ := string_inv a4
  refine ⟨f a b, (hl a b).2 ⟨g1, k1⟩, ?_, (d, ty, none), .inl (m c), hm a b _ _ g2 k2, fun _ => rfl⟩
  rw [hf]
  exact pre_cons hw (pre_cons (comma_inv a1) (pre_cons g3 (pre_cons (comma_inv a3) k3)))

/-- An illegal token that starts with white space is one character (`logos`: no pattern starts with it). -/
def Sane (L : Lib) : Prop := ∀ c cs, L.uc.white c = true → L.bad (c :: cs) = 0

theorem prefix_of_isPrefixOf : ∀ (a b : Str), a.isPrefixOf b = true → a <+: b
  | [], b, _ => ⟨b, rfl⟩
  | x :: xs, [], h => by cases h
  | x :: xs, y :: ys, h => by
    rw [List.isPrefixOf, Bool.and_eq_true] at h
    obtain ⟨t, ht⟩ := prefix_of_isPrefixOf xs ys h.2
    have hxy : x = y := by simpa using h.1
    exact ⟨t, by rw [hxy, ← ht]; rfl⟩

/-- White space that starts a token other than an illegal one does not exist. -/
theorem white_illegal {L : Lib} {c : Char} (h : L.uc.white c = true) (cs : Str) : token L c cs = illegal L (c :: cs) := by
  have hne : ∀ d : Char, d.toNat < 128 → asciiWhite d = false → c ≠ d := by
    rintro d hd hw rfl
    rw [L.uc.white_ascii c hd, hw] at h
    cases h
  have ha : c.isAlpha = false := by
    cases hc : c.isAlpha with
    | false => rfl
    | true => rw [white_alpha hc] at h; cases h
  have hd : c.isDigit = false := by
    cases hc : c.isDigit with
    | false => rfl
    | true =>
      simp only [Char.isDigit, Bool.and_eq_true, decide_eq_true_eq] at hc
      have h1 : c.toNat ≤ 57 := by simpa using UInt32.le_iff_toNat_le.mp hc.2
      have h2 : 48 ≤ c.toNat := by simpa using UInt32.le_iff_toNat_le.mp hc.1
      rw [L.uc.white_ascii c (by omega), asciiWhite] at h
      have e1 : (c.toNat == 32) = false := by rw [beq_eq_false_iff_ne]; omega
      have e2 : decide (c.toNat ≤ 13) = false := by rw [decide_eq_false_iff_not]; omega
      rw [e1, e2] at h
      simp at h
  unfold token
  rw [if_neg (by rw [ha]; decide), if_neg (by rw [hd]; decide),
    if_neg (hne '(' (by decide) (by decide)), if_neg (hne ')' (by decide) (by decide)),
    if_neg (hne ',' (by decide) (by decide)), if_neg (hne '$' (by decide) (by decide)),
    if_neg (hne '\'' (by decide) (by decide)), if_neg (hne '-' (by decide) (by decide)),
    if_neg (hne '.' (by decide) (by decide))]

theorem prefix_takeWhile {p : Char → Bool} : ∀ (a b : Str), a <+: b → (∀ c ∈ a, p c = true) → a <+: b.takeWhile p
  | [], b, _, _ => ⟨_, rfl⟩
  | x :: xs, [], ⟨t, ht⟩, _ => by cases ht
  | x :: xs, y :: ys, ⟨t, ht⟩, h => by
    injection ht with h1 h2
    subst h1
    rw [List.takeWhile_cons_of_pos (h x (by simp))]
    obtain ⟨u, hu⟩ := prefix_takeWhile xs ys ⟨t, h2⟩ (fun c hc => h c (by simp [hc]))
    exact ⟨u, by rw [← hu]; rfl⟩

theorem timed_inv {L : Lib} (hL : Sane L) {g : Generator} {s : Str} {v : Value} {s' : Str}
    (h : parseTimed L g s = .ok (v, s')) : ∃ t, LooseTimed t ∧ TimedMeans g t v ∧ Pre (timedWords t) s s' := by
  unfold parseTimed at h
  split at h
  · rename_i ha
    have hp := prefix_of_isPrefixOf _ _ ha
    split at h
    · rename_i l hl
      obtain ⟨e, x, lit, g1, g2, g3, g4, g5⟩ := state_inv h
      obtain ⟨ws, c, cs, k1, k2, k3, k4⟩ := next_inv hl
      rw [k2, dropWhile_all ws _ (white_skip k1)] at hp
      cases hw : L.uc.white c with
      | true =>
        -- the white space is an illegal token, and no bracket follows
        exfalso
        rw [List.dropWhile_cons_of_pos hw] at hp
        have hrest : l.rest = cs := by
          rw [k4, white_illegal hw, illegal, hL c cs hw]
          rfl
        rw [hrest] at g5
        obtain ⟨t, q1, q2⟩ := pre_laid g5
        cases g5 with
        | cons ws' w ts s0 r hws _ =>
          have e1 : (ws' ++ (lpar ++ s0)).dropWhile L.uc.white = '(' :: s0 := by
            rw [dropWhile_all ws' _ (white_skip hws)]
            exact List.dropWhile_cons_of_neg (by rw [L.uc.white_ascii _ (by decide)]; decide)
          rw [e1] at hp
          obtain ⟨t, ht⟩ := hp
          have : fps ++ t = 'f' :: ("romProviderState".toList ++ t) := rfl
          rw [this] at ht
          injection ht with ht _
          exact absurd ht (by decide)
      | false =>
        rw [List.dropWhile_cons_of_neg (by simp [hw])] at hp
        have hc : c = 'f' := by
          obtain ⟨t, ht⟩ := hp
          have : fps ++ t = 'f' :: ("romProviderState".toList ++ t) := rfl
          rw [this] at ht
          injection ht with ht _
          exact ht.symm
        have hword : l = word (c :: cs) := by
          rw [k4]
          unfold token
          rw [if_pos (by rw [hc]; decide)]
        subst g4
        refine ⟨.state l.text e lit, ⟨⟨?_, ?_⟩, g1, g2⟩, .state l.text e x lit g3, pre_cons (next_pre hl) g5⟩
        · rw [hword]
          exact List.all_eq_true.2 (takeWhile_true (c :: cs))
        · rw [hword]
          exact prefix_takeWhile fps (c :: cs) hp (List.all_eq_true.1 (by decide))
    · obtain ⟨e, x, lit, _, _, _, _, g5⟩ := state_inv h
      exfalso
      obtain ⟨t, q1, q2⟩ := pre_laid g5
      have q3 := laid_weight (q2 [] (by simp))
      have q4 : t = [] := (List.append_eq_nil_iff.1 q1.symm).1
      rw [q4] at q3
      simp [weight, lpar] at q3
  · obtain ⟨⟨x, s2⟩, a1, h⟩ := Res.map_eq_ok.1 h
    injection h with h1 h2
    subst h1 h2
    obtain ⟨c, g1, g2, g3⟩ := string_inv a1
    exact ⟨.str c, g1, .str c x g2, g3⟩

theorem time_inv {L : Lib} (hL : Sane L) {m : Str → MatchingRule} {g : Str → Generator} {f : Str → Timed → Rule} {w : Str}
    {s s1 s' : Str} {p : Parts} (h : parseTime L m g s1 = .ok (p, s')) (hw : Pre [w] s s1)
    (hf : ∀ a t, ruleWords (f a t) = w :: comma :: quoted a :: comma :: timedWords t)
    (hl : ∀ a t, LooseRule (f a t) ↔ (guarded false a = true ∧ LooseTimed t))
    (hm : ∀ a x t v, Says a x → TimedMeans (g x) t v → RuleMeans L (f a t) v (.inl (m x))) : ∃ r, Read L r p s s' := by
  unfold parseTime at h
  obtain ⟨s2, a1, h⟩ := bind_eq_ok.1 h
  obtain ⟨⟨c, s3⟩, a2, h⟩ := bind_eq_ok.1 h
  obtain ⟨s4, a3, h⟩ := bind_eq_ok.1 h
  obtain ⟨q, a4, h⟩ := Res.map_eq_ok.1 h
  obtain ⟨h1, h2⟩ := withRule_eq h
  subst h2
  obtain ⟨a, g1, g2, g3⟩ := string_inv a2
  obtain ⟨t, k1, k2, k3⟩ := timed_inv hL (v := q.1) (s' := q.2) a4
  refine ⟨f a t, (hl a t).2 ⟨g1, k1⟩, ?_, q.1, .inl (m c), hm a c t _ g2 k2, h1⟩
  rw [hf]
  exact pre_cons hw (pre_cons (comma_inv a1) (pre_cons g3 (pre_cons (comma_inv a3) k3)))

theorem number_inv' {L : Lib} {s s1 s' : Str} {p : Parts} (h : parseNumber L s1 = .ok (p, s'))
    (hw : Pre ["number".toList] s s1) : ∃ r, Read L r p s s' := by
  unfold parseNumber at h
  obtain ⟨s2, a1, h⟩ := bind_eq_ok.1 h
  obtain ⟨l, a2, h⟩ := bind_eq_ok.1 h
  have hn := nextOr_inv a2
  have done : ∀ (a : Arg) (v : Value), LooseArg a → a.numeric → NumMeans .number a v → Pre (argWords a) s2 s' →
      Hands p v (.inl .number) → ∃ r, Read L r p s s' := by
    intro a v g1 g2 g3 g4 g5
    exact ⟨.number a, ⟨g1, g2⟩, pre_cons hw (pre_cons (comma_inv a1) g4), v, _, .number a v g3, g5⟩
  split at h
  · rename_i ht
    injection h with h
    injection h with h1 h2
    subst h1 h2
    obtain ⟨a, g1, _, g3, g4, g5⟩ := num_dec_inv .number hn ht
    exact done a _ g1 g5 g3 g4 (fun _ => rfl)
  · rename_i ht
    obtain ⟨q, b1, b2⟩ := Res.map_eq_ok.1 h
    obtain ⟨h1, h2⟩ := withRule_eq b2
    obtain ⟨a, g1, _, g3, g4, g5⟩ := num_whole_inv .number hn (Or.inr (next_shape hn ht)) (v := q.1) (s' := q.2) b1
    exact done a _ g1 g5 g3 (by rw [← h2]; exact g4) h1
  · rename_i ht
    obtain ⟨q, b1, b2⟩ := Res.map_eq_ok.1 h
    obtain ⟨h1, h2⟩ := withRule_eq b2
    obtain ⟨a, g1, _, g3, g4, g5⟩ := num_whole_inv .number hn (Or.inl (next_shape hn ht)) (v := q.1) (s' := q.2) b1
    exact done a _ g1 g5 g3 (by rw [← h2]; exact g4) h1
  · split at h
    · rename_i hf
      obtain ⟨q, b1, b2⟩ := Res.map_eq_ok.1 h
      obtain ⟨h1, h2⟩ := withRule_eq b2
      obtain ⟨a, g1, _, g3, g4, g5, _⟩ := num_state_inv .number hn hf (v := q.1) (s' := q.2) b1
      exact done a _ g1 g5 g3 (by rw [← h2]; exact g4) h1
    · cases h

theorem integer_inv {L : Lib} {s s1 s' : Str} {p : Parts} (h : parseInteger L s1 = .ok (p, s'))
    (hw : Pre ["integer".toList] s s1) : ∃ r, Read L r p s s' := by
  unfold parseInteger at h
  obtain ⟨s2, a1, h⟩ := bind_eq_ok.1 h
  obtain ⟨l, a2, h⟩ := bind_eq_ok.1 h
  have hn := nextOr_inv a2
  have done : ∀ (a : Arg) (v : Value), LooseArg a → a.integral → NumMeans .integer a v → Pre (argWords a) s2 s' →
      Hands p v (.inl .integer) → ∃ r, Read L r p s s' := by
    intro a v g1 g2 g3 g4 g5
    exact ⟨.integer a, ⟨g1, g2⟩, pre_cons hw (pre_cons (comma_inv a1) g4), v, _, .integer a v g3, g5⟩
  split at h
  · rename_i ht
    injection h with h
    injection h with h1 h2
    subst h1 h2
    exact done (.lit (.whole l.text)) _ (Or.inr (next_shape hn ht)) trivial (.lit _) (next_pre hn) (fun _ => rfl)
  · rename_i ht
    injection h with h
    injection h with h1 h2
    subst h1 h2
    exact done (.lit (.whole l.text)) _ (Or.inl (next_shape hn ht)) trivial (.lit _) (next_pre hn) (fun _ => rfl)
  · split at h
    · rename_i hf
      obtain ⟨q, b1, b2⟩ := Res.map_eq_ok.1 h
      obtain ⟨h1, h2⟩ := withRule_eq b2
      obtain ⟨a, g1, _, g3, g4, _, g5⟩ := num_state_inv .integer hn hf (v := q.1) (s' := q.2) b1
      exact done a _ g1 g5 g3 (by rw [← h2]; exact g4) h1
    · cases h

theorem decimal_inv {L : Lib} {s s1 s' : Str} {p : Parts} (h : parseDecimal L s1 = .ok (p, s'))
    (hw : Pre ["decimal".toList] s s1) : ∃ r, Read L r p s s' := by
  unfold parseDecimal at h
  obtain ⟨s2, a1, h⟩ := bind_eq_ok.1 h
  obtain ⟨l, a2, h⟩ := bind_eq_ok.1 h
  have hn := nextOr_inv a2
  have done : ∀ (a : Arg) (v : Value), LooseArg a → a.numeric → NumMeans .decimal a v → Pre (argWords a) s2 s' →
      Hands p v (.inl (if a.isLit then .decimal else .number)) → ∃ r, Read L r p s s' := by
    intro a v g1 g2 g3 g4 g5
    exact ⟨.decimal a, ⟨g1, g2⟩, pre_cons hw (pre_cons (comma_inv a1) g4), v, _, .decimal a v g3, g5⟩
  split at h
  · rename_i ht
    obtain ⟨q, b1, b2⟩ := Res.map_eq_ok.1 h
    obtain ⟨h1, h2⟩ := withRule_eq b2
    obtain ⟨a, g1, gl, g3, g4, g5⟩ := num_whole_inv .decimal hn (Or.inr (next_shape hn ht)) (v := q.1) (s' := q.2) b1
    exact done a _ g1 g5 g3 (by rw [← h2]; exact g4) (by rw [gl]; exact h1)
  · rename_i ht
    obtain ⟨q, b1, b2⟩ := Res.map_eq_ok.1 h
    obtain ⟨h1, h2⟩ := withRule_eq b2
    obtain ⟨a, g1, gl, g3, g4, g5⟩ := num_whole_inv .decimal hn (Or.inl (next_shape hn ht)) (v := q.1) (s' := q.2) b1
    exact done a _ g1 g5 g3 (by rw [← h2]; exact g4) (by rw [gl]; exact h1)
  · rename_i ht
    injection h with h
    injection h with h1 h2
    subst h1 h2
    obtain ⟨a, g1, gl, g3, g4, g5⟩ := num_dec_inv .decimal hn ht
    exact done a _ g1 g5 g3 g4 (by rw [gl]; exact fun _ => rfl)
  · split at h
    · rename_i hf
      obtain ⟨q, b1, b2⟩ := Res.map_eq_ok.1 h
      obtain ⟨h1, h2⟩ := withRule_eq b2
      obtain ⟨a, g1, gl, g3, g4, g5, _⟩ := num_state_inv .decimal hn hf (v := q.1) (s' := q.2) b1
      exact done a _ g1 g5 g3 (by rw [← h2]; exact g4) (by rw [gl]; exact h1)
    · cases h

theorem rule_inv {L : Lib} (hL : Sane L) {s s' : Str} {p : Parts} (h : parseRule L s = .ok (p, s')) :
    ∃ r, Read L r p s s' := by
  unfold parseRule at h
  obtain ⟨l, a1, h⟩ := bind_eq_ok.1 h
  have hn := nextOr_inv a1
  have hpre := next_pre hn
  split at h
  · split at h
    · rename_i f hf
      have hmem := Json.lookup_mem hf
      generalize ht : l.text = t at hmem hpre
      simp only [matchers, List.mem_cons, Prod.mk.injEq, List.not_mem_nil, or_false] at hmem
      rcases hmem with ⟨rfl, rfl⟩ | ⟨rfl, rfl⟩ | ⟨rfl, rfl⟩ | ⟨rfl, rfl⟩ | ⟨rfl, rfl⟩ | ⟨rfl, rfl⟩ | ⟨rfl, rfl⟩ | ⟨rfl, rfl⟩ |
        ⟨rfl, rfl⟩ | ⟨rfl, rfl⟩ | ⟨rfl, rfl⟩ | ⟨rfl, rfl⟩ | ⟨rfl, rfl⟩
      · exact any_inv (f := .equalTo) h hpre (fun _ => rfl) (fun _ => Iff.rfl) (fun a v ha => .equalTo a v ha)
      · exact configured_inv (f := .regex) h hpre (fun _ _ => rfl) (fun _ _ => Iff.rfl) (fun a b x y hx hy => .regex a b x y hx hy)
      · exact any_inv (f := .type) h hpre (fun _ => rfl) (fun _ => Iff.rfl) (fun a v ha => .type a v ha)
      · exact time_inv hL (f := .datetime) h hpre (fun _ _ => rfl) (fun _ _ => Iff.rfl) (fun a x t v hx ht => .datetime a x t v hx ht)
      · exact time_inv hL (f := .date) h hpre (fun _ _ => rfl) (fun _ _ => Iff.rfl) (fun a x t v hx ht => .date a x t v hx ht)
      · exact time_inv hL (f := .time) h hpre (fun _ _ => rfl) (fun _ _ => Iff.rfl) (fun a x t v hx ht => .time a x t v hx ht)
      · unfold parseInclude at h
        obtain ⟨s2, b1, h⟩ := bind_eq_ok.1 h
        obtain ⟨⟨x, s3⟩, b2, h⟩ := Res.map_eq_ok.1 h
        injection h with h1 h2
        subst h1 h2
        obtain ⟨c, g1, g2, g3⟩ := string_inv b2
        exact ⟨.includes c, g1, pre_cons hpre (pre_cons (comma_inv b1) g3), _, _, .includes c x g2, fun _ => rfl⟩
      · exact number_inv' h hpre
      · exact integer_inv h hpre
      · exact decimal_inv h hpre
      · unfold parseBoolean at h
        obtain ⟨s2, b1, h⟩ := bind_eq_ok.1 h
        obtain ⟨⟨x, s3⟩, b2, h⟩ := Res.map_eq_ok.1 h
        injection h with h1 h2
        subst h1 h2
        obtain ⟨g1, g2⟩ := expect_inv b2
        obtain ⟨b, rfl⟩ := bool_word g1.2
        exact ⟨.boolean b, trivial, pre_cons hpre (pre_cons (comma_inv b1) g2), _, _, .boolean b, fun _ => rfl⟩
      · exact configured_inv (f := .contentType) h hpre (fun _ _ => rfl) (fun _ _ => Iff.rfl) (fun a b x y hx hy => .contentType a b x y hx hy)
      · unfold parseSemver at h
        obtain ⟨s2, b1, h⟩ := bind_eq_ok.1 h
        obtain ⟨⟨x, s3⟩, b2, h⟩ := bind_eq_ok.1 h
        simp only at h
        split at h
        · rename_i hs
          injection h with h
          injection h with h1 h2
          subst h1 h2
          obtain ⟨c, g1, g2, g3⟩ := string_inv b2
          exact ⟨.semver c, g1, pre_cons hpre (pre_cons (comma_inv b1) g3), _, _, .semver c x g2 hs, fun _ => rfl⟩
        · cases h
    · cases h
  · rename_i ht
    have hx : l.text = ['$'] := next_shape hn ht
    unfold parseReference at h
    obtain ⟨⟨x, s3⟩, b2, h⟩ := Res.map_eq_ok.1 h
    injection h with h1 h2
    subst h1 h2
    obtain ⟨c, g1, g2, g3⟩ := string_inv b2
    rw [hx] at hpre
    exact ⟨.ref c, g1, pre_cons hpre g3, _, _, .ref c x g2, fun _ => rfl⟩
  · cases h

theorem bracketed_inv {α : Type} {L : Lib} {p : Str → Res (α × Str)} {a : α} {s s' : Str}
    (h : bracketed L p s = .ok (a, s')) : ∃ s1 s2, Pre [lpar] s s1 ∧ p s1 = .ok (a, s2) ∧ Pre [rpar] s2 s' := by
  unfold bracketed at h
  obtain ⟨⟨x1, s1⟩, a1, h⟩ := bind_eq_ok.1 h
  obtain ⟨⟨y, s2⟩, a2, h⟩ := bind_eq_ok.1 h
  obtain ⟨⟨x3, s3⟩, a3, h⟩ := Res.map_eq_ok.1 h
  injection h with h1 h2
  subst h1 h2
  exact ⟨s1, s2, lpar_inv a1, a2, rpar_inv a3⟩

theorem length_inv {L : Lib} {s s' : Str} {n : Nat} (h : parseLength L s = .ok (n, s')) :
    ∃ t, parseDigits usizeLim t = some n ∧ Pre [t] s s' := by
  unfold parseLength at h
  obtain ⟨⟨t, s1⟩, a1, h⟩ := bind_eq_ok.1 h
  simp only at h
  split at h
  · rename_i k hk
    injection h with h
    injection h with h1 h2
    subst h1 h2
    exact ⟨t, hk, (expect_inv a1).2⟩
  · cases h

theorem keyword_word {x : Str} {t : Tok} {w : Str} (h : wordTok x = t) (hid : t ≠ .id)
    (hu : ∀ y, (y, t) ∈ keywords → y = w) : x = w := by
  unfold wordTok at h
  cases hl : Json.lookup x keywords with
  | none => rw [hl] at h; exact absurd h.symm hid
  | some t' =>
    rw [hl] at h
    have ht : t' = t := h
    subst ht
    exact hu x (Json.lookup_mem hl)

theorem keyword_pre {L : Lib} {s : Str} {l : Lexeme} {t : Tok} {w : Str} (hn : next L s = some l) (ht : l.tok = some t)
    (hs : Shape t l.text → wordTok l.text = t) (hid : t ≠ .id) (hu : ∀ y, (y, t) ∈ keywords → y = w) :
    Pre [w] s l.rest := by
  have := keyword_word (hs (next_shape hn ht)) hid hu
  have hp := next_pre hn
  rwa [this] at hp

theorem exp_inv {L : Lib} (hL : Sane L) {v : Str} : ∀ (n : Nat) (s s' : Str) (d : RuleDef), exp L v n s = .ok (d, s') →
    ∃ e, LooseExp e ∧ ExpMeans L v e d ∧ Pre (expWords e) s s'
  | 0, _, _, _, h => by cases h
  | n + 1, s, s', d, h => by
    rw [exp] at h
    obtain ⟨l, a1, h⟩ := bind_eq_ok.1 h
    have hn := nextOr_inv a1
    split at h
    · rename_i ht
      have hk := keyword_pre (w := "matching".toList) hn ht (fun h => h.2) (by decide) (by simp [keywords])
      obtain ⟨⟨p, s1⟩, b1, h⟩ := bind_eq_ok.1 h
      obtain ⟨d', b2, h⟩ := Res.map_eq_ok.1 h
      injection h with h1 h2
      subst h1 h2
      obtain ⟨s2, s3, c1, c2, c3⟩ := bracketed_inv b1
      obtain ⟨r, g1, g2, w, m, g3, g4⟩ := rule_inv hL c2
      rw [g4 v] at b2
      injection b2 with b2
      subst b2
      exact ⟨.matching r, g1, .matching r _ _ _ m g3, pre_cons hk (pre_cons c1 (pre_append g2 c3))⟩
    · rename_i ht
      have hk := keyword_pre (w := "notEmpty".toList) hn ht (fun h => h.2) (by decide) (by simp [keywords])
      obtain ⟨⟨⟨x, ty, g⟩, s1⟩, b1, h⟩ := Res.map_eq_ok.1 h
      injection h with h1 h2
      subst h1 h2
      obtain ⟨s2, s3, c1, c2, c3⟩ := bracketed_inv b1
      obtain ⟨a, g1, g2, g3⟩ := arg_inv c2
      exact ⟨.notEmpty a, g1, .notEmpty a _ _ _ g2, pre_cons hk (pre_cons c1 (pre_append g3 c3))⟩
    · rename_i ht
      have hk := keyword_pre (w := "eachKey".toList) hn ht (fun h => h.2) (by decide) (by simp [keywords])
      obtain ⟨⟨x, s1⟩, b1, h⟩ := Res.map_eq_ok.1 h
      injection h with h1 h2
      subst h1 h2
      obtain ⟨s2, s3, c1, c2, c3⟩ := bracketed_inv b1
      obtain ⟨e, g1, g2, g3⟩ := exp_inv hL n s2 s3 x c2
      exact ⟨.eachKey e, g1, .eachKey e x g2, pre_cons hk (pre_cons c1 (pre_append g3 c3))⟩
    · rename_i ht
      have hk := keyword_pre (w := "eachValue".toList) hn ht (fun h => h.2) (by decide) (by simp [keywords])
      obtain ⟨⟨x, s1⟩, b1, h⟩ := Res.map_eq_ok.1 h
      injection h with h1 h2
      subst h1 h2
      obtain ⟨s2, s3, c1, c2, c3⟩ := bracketed_inv b1
      obtain ⟨e, g1, g2, g3⟩ := exp_inv hL n s2 s3 x c2
      exact ⟨.eachValue e, g1, .eachValue e x g2, pre_cons hk (pre_cons c1 (pre_append g3 c3))⟩
    · rename_i ht
      have hk := keyword_pre (w := "atLeast".toList) hn ht (fun h => h.2) (by decide) (by simp [keywords])
      obtain ⟨⟨x, s1⟩, b1, h⟩ := Res.map_eq_ok.1 h
      injection h with h1 h2
      subst h1 h2
      obtain ⟨s2, s3, c1, c2, c3⟩ := bracketed_inv b1
      obtain ⟨t, g1, g2⟩ := length_inv c2
      exact ⟨.atLeast t, ⟨x, g1⟩, .atLeast t x g1, pre_cons hk (pre_cons c1 (pre_append g2 c3))⟩
    · rename_i ht
      have hk := keyword_pre (w := "atMost".toList) hn ht (fun h => h.2) (by decide) (by simp [keywords])
      obtain ⟨⟨x, s1⟩, b1, h⟩ := Res.map_eq_ok.1 h
      injection h with h1 h2
      subst h1 h2
      obtain ⟨s2, s3, c1, c2, c3⟩ := bracketed_inv b1
      obtain ⟨t, g1, g2⟩ := length_inv c2
      exact ⟨.atMost t, ⟨x, g1⟩, .atMost t x g1, pre_cons hk (pre_cons c1 (pre_append g2 c3))⟩
    · cases h

/-- The rest of a text: white space, and perhaps an illegal token at the very end. -/
def Ends (L : Lib) (s : Str) : Prop :=
  (∀ c ∈ s, c ∈ [' ', '\t', '\n', '\x0c']) ∨ ∃ l, next L s = some l ∧ l.tok = none ∧ l.rest = []

theorem more_inv {L : Lib} (hL : Sane L) {v : Str} (hv : v ≠ []) : ∀ (n : Nat) (ds : List RuleDef) (d r : RuleDef) (s : Str),
    Combines v ds d → moreExps L v n d s = .ok r →
    ∃ es ds' s', (∀ e ∈ es, LooseExp e) ∧ AllMean L v es ds' ∧ Combines v (ds ++ ds') r ∧ Pre (moreWords es) s s' ∧ Ends L s'
  | 0, _, _, _, _, _, h => by cases h
  | n + 1, ds, d, r, s, hc, h => by
    rw [moreExps] at h
    split at h
    · rename_i hn
      injection h with h
      subst h
      exact ⟨[], [], s, by simp, .nil, by rwa [List.append_nil], .nil s, Or.inl (next_none hn)⟩
    · rename_i l hn
      split at h
      · rename_i ht
        split at h
        · rename_i he
          injection h with h
          subst h
          exact ⟨[], [], s, by simp, .nil, by rwa [List.append_nil], .nil s, Or.inr ⟨l, hn, ht, List.isEmpty_iff.1 he⟩⟩
        · cases h
      · rename_i ht
        obtain ⟨⟨x, s1⟩, b1, h⟩ := bind_eq_ok.1 h
        obtain ⟨e, g1, g2, g3⟩ := exp_inv hL _ _ _ _ b1
        obtain ⟨es, ds', s', k1, k2, k3, k4, k5⟩ := more_inv hL hv n (ds ++ [x]) (merge d x) r s1
          (combines_merge hv hc (means_expression g2)) h
        have hx : l.text = comma := next_shape hn ht
        have hp := next_pre hn
        rw [hx] at hp
        refine ⟨e :: es, x :: ds', s', ?_, .cons e es x ds' g2 k2, by simpa using k3, pre_cons hp (pre_append g3 k4), k5⟩
        intro y hy
        rcases List.mem_cons.1 hy with rfl | hy
        · exact g1
        · exact k1 y hy
      · cases h

/-- C83.  Whatever is accepted is a list of expressions in order, separated by commas, with white space between the
words, and stands for the definition returned; after it there may only be white space or an illegal token
that ends the text. -/
theorem C83_only_partial {L : Lib} (hL : Sane L) {v : Str} {d : RuleDef} (h : parse L v = .ok d) :
    ∃ e es ds t s', v = t ++ s' ∧ Laid (defWords e es) t ∧ (∀ x ∈ e :: es, LooseExp x) ∧ AllMean L v (e :: es) ds ∧
      Combines v ds d ∧ Ends L s' := by
  unfold parse at h
  split at h
  · cases h
  · rename_i he
    have hv : v ≠ [] := by rintro rfl; exact he rfl
    obtain ⟨⟨x, s1⟩, b1, h⟩ := bind_eq_ok.1 h
    obtain ⟨e, g1, g2, g3⟩ := exp_inv hL _ _ _ _ b1
    obtain ⟨es, ds', s', k1, k2, k3, k4, k5⟩ := more_inv hL hv _ [x] x d s1 (combines_one (means_expression g2)) h
    obtain ⟨t, q1, q2⟩ := pre_laid (pre_append g3 k4)
    refine ⟨e, es, x :: ds', t, s', q1, (by have := q2 [] (by simp); rwa [List.append_nil] at this), ?_, .cons e es x ds' g2 k2, k3, k5⟩
    intro y hy
    rcases List.mem_cons.1 hy with rfl | hy
    · exact g1
    · exact k1 y hy

/-! ## No panic -/

theorem bind_safe {α β : Type} {r : Res α} {f : α → Res β} (h : r ≠ .panic) (hf : ∀ a, r = .ok a → f a ≠ .panic) :
    r.bind f ≠ .panic := by
  cases r with
  | ok a => exact hf a rfl
  | err => intro e; cases e
  | panic => exact absurd rfl h

theorem map_safe {α β : Type} {r : Res α} {f : α → β} (h : r ≠ .panic) : r.map f ≠ .panic := by
  intro e
  exact h (Res.map_eq_panic.1 e)

theorem expect_safe (L : Lib) (t : Tok) (s : Str) : expect L t s ≠ .panic := by
  unfold expect
  split
  · intro e; cases e
  · split <;> intro e <;> cases e

theorem unescape_safe : ∀ (s : Str) (st : Escape), unescape st s ≠ .panic
  | [], st => by cases st <;> (intro e; cases e)
  | c :: cs, st => by
    have uni : ∀ b, unicode b (unescape .plain cs) ≠ .panic := by
      intro b
      unfold unicode
      split
      · exact map_safe (unescape_safe cs _)
      · intro e; cases e
    cases st with
    | plain =>
      rw [unescape]
      split
      · exact unescape_safe cs _
      · exact map_safe (unescape_safe cs _)
    | slash =>
      rw [unescape]
      split
      · exact map_safe (unescape_safe cs _)
      · split
        · exact unescape_safe cs _
        · exact map_safe (unescape_safe cs _)
    | u =>
      rw [unescape]
      split <;> exact unescape_safe cs _
    | four b =>
      rw [unescape]
      split
      · exact uni _
      · exact unescape_safe cs _
    | brace b =>
      rw [unescape]
      split
      · exact uni _
      · exact unescape_safe cs _

theorem string_safe (L : Lib) (s : Str) : parseString L s ≠ .panic :=
  bind_safe (expect_safe L _ s) (fun _ _ => map_safe (unescape_safe _ _))

theorem comma_safe (L : Lib) (s : Str) : parseComma L s ≠ .panic := map_safe (expect_safe L _ s)

theorem nextOr_safe (L : Lib) (s : Str) : nextOr L s ≠ .panic := by
  unfold nextOr; split <;> intro e <;> cases e

theorem whole_safe (L : Lib) (a b : ValueType) (t r : Str) : wholeOr L a b t r ≠ .panic := by
  unfold wholeOr
  split
  · rename_i p hp
    apply map_safe
    unfold decimalPart at hp
    split at hp
    · injection hp with hp
      rw [← hp]
      split <;> intro e <;> cases e
    · cases hp
  · intro e; cases e

theorem literal_safe (L : Lib) (l : Lexeme) : parseLiteral L l ≠ .panic := by
  unfold parseLiteral
  split <;> first | exact whole_safe L _ _ _ _ | (intro e; cases e)

theorem state_safe (L : Lib) (s : Str) : fromProviderState L s ≠ .panic :=
  bind_safe (expect_safe L _ s) fun _ _ => bind_safe (string_safe L _) fun _ _ => bind_safe (comma_safe L _) fun _ _ =>
    bind_safe (nextOr_safe L _) fun _ _ => bind_safe (literal_safe L _) fun _ _ => map_safe (expect_safe L _ _)

theorem primitive_safe (L : Lib) (s : Str) : parsePrimitive L s ≠ .panic := by
  refine bind_safe (nextOr_safe L s) fun l _ => ?_
  split
  · exact state_safe L _
  · exact literal_safe L _

theorem rule_safe (L : Lib) (s : Str) : parseRule L s ≠ .panic := by
  have hconf : ∀ m ty s, parseConfigured L m ty s ≠ .panic := fun m ty s =>
    bind_safe (comma_safe L s) fun _ _ => bind_safe (string_safe L _) fun _ _ => bind_safe (comma_safe L _) fun _ _ =>
      map_safe (string_safe L _)
  have hany : ∀ m s, parseAny L m s ≠ .panic := fun m s =>
    bind_safe (comma_safe L s) fun _ _ => map_safe (primitive_safe L _)
  have htime : ∀ m g s, parseTime L m g s ≠ .panic := fun m g s =>
    bind_safe (comma_safe L s) fun _ _ => bind_safe (string_safe L _) fun _ _ => bind_safe (comma_safe L _) fun _ _ =>
      map_safe (by unfold parseTimed; split; exact state_safe L _; exact map_safe (string_safe L _))
  refine bind_safe (nextOr_safe L s) fun l _ => ?_
  split
  · split
    · rename_i f hf
      have hmem := Json.lookup_mem hf
      simp only [matchers, List.mem_cons, Prod.mk.injEq, List.not_mem_nil, or_false] at hmem
      rcases hmem with ⟨_, rfl⟩ | ⟨_, rfl⟩ | ⟨_, rfl⟩ | ⟨_, rfl⟩ | ⟨_, rfl⟩ | ⟨_, rfl⟩ | ⟨_, rfl⟩ | ⟨_, rfl⟩ |
        ⟨_, rfl⟩ | ⟨_, rfl⟩ | ⟨_, rfl⟩ | ⟨_, rfl⟩ | ⟨_, rfl⟩
      · exact hany _ _
      · exact hconf _ _ _
      · exact hany _ _
      · exact htime _ _ _
      · exact htime _ _ _
      · exact htime _ _ _
      · exact bind_safe (comma_safe L _) fun _ _ => map_safe (string_safe L _)
      · refine bind_safe (comma_safe L _) fun _ _ => bind_safe (nextOr_safe L _) fun _ _ => ?_
        split
        · intro e; cases e
        · exact map_safe (whole_safe L _ _ _ _)
        · exact map_safe (whole_safe L _ _ _ _)
        · split
          · exact map_safe (state_safe L _)
          · intro e; cases e
      · refine bind_safe (comma_safe L _) fun _ _ => bind_safe (nextOr_safe L _) fun _ _ => ?_
        split
        · intro e; cases e
        · intro e; cases e
        · split
          · exact map_safe (state_safe L _)
          · intro e; cases e
      · refine bind_safe (comma_safe L _) fun _ _ => bind_safe (nextOr_safe L _) fun _ _ => ?_
        split
        · exact map_safe (whole_safe L _ _ _ _)
        · exact map_safe (whole_safe L _ _ _ _)
        · intro e; cases e
        · split
          · exact map_safe (state_safe L _)
          · intro e; cases e
      · exact bind_safe (comma_safe L _) fun _ _ => map_safe (expect_safe L _ _)
      · exact hconf _ _ _
      · refine bind_safe (comma_safe L _) fun _ _ => bind_safe (string_safe L _) fun _ _ => ?_
        simp only
        split <;> intro e <;> cases e
    · intro e; cases e
  · exact map_safe (string_safe L _)
  · intro e; cases e

theorem bracketed_safe {α : Type} {L : Lib} {p : Str → Res (α × Str)} (hp : ∀ s, p s ≠ .panic) (s : Str) :
    bracketed L p s ≠ .panic :=
  bind_safe (expect_safe L _ s) fun _ _ => bind_safe (hp _) fun _ _ => map_safe (expect_safe L _ _)

theorem length_safe (L : Lib) (s : Str) : parseLength L s ≠ .panic := by
  refine bind_safe (expect_safe L _ s) fun q _ => ?_
  simp only
  split <;> intro e <;> cases e

theorem exp_safe {L : Lib} (hL : Sane L) (v : Str) : ∀ (n : Nat) (s : Str), exp L v n s ≠ .panic
  | 0, _ => by intro e; cases e
  | n + 1, s => by
    rw [exp]
    refine bind_safe (nextOr_safe L s) fun l _ => ?_
    split
    · refine bind_safe (bracketed_safe (rule_safe L) _) fun q hq => map_safe ?_
      obtain ⟨s2, s3, c1, c2, c3⟩ := bracketed_inv (a := q.1) (s' := q.2) hq
      obtain ⟨r, _, _, w, m, _, g4⟩ := rule_inv hL c2
      rw [g4 v]
      intro e; cases e
    · exact map_safe (bracketed_safe (primitive_safe L) _)
    · exact map_safe (bracketed_safe (exp_safe hL v n) _)
    · exact map_safe (bracketed_safe (exp_safe hL v n) _)
    · exact map_safe (bracketed_safe (length_safe L) _)
    · exact map_safe (bracketed_safe (length_safe L) _)
    · intro e; cases e

theorem more_safe {L : Lib} (hL : Sane L) (v : Str) : ∀ (n : Nat) (d : RuleDef) (s : Str), moreExps L v n d s ≠ .panic
  | 0, _, _ => by intro e; cases e
  | n + 1, d, s => by
    rw [moreExps]
    split
    · intro e; cases e
    · split
      · split <;> intro e <;> cases e
      · exact bind_safe (exp_safe hL v _ _) fun q _ => more_safe hL v n _ _
      · intro e; cases e

/-- C82.  Parsing never panics: every text gives a definition or an error. -/
theorem C82_no_panic {L : Lib} (hL : Sane L) (v : Str) : parse L v ≠ .panic := by
  unfold parse
  split
  · intro e; cases e
  · exact bind_safe (exp_safe hL v _ _) fun _ _ => more_safe hL v _ _ _

/-! ## Every string can be written -/

/-- A way to write a string between quotes: backslashes and quotes as unicode escapes. -/
def enc : Str → Str
  | [] => []
  | c :: cs => (if c = '\\' then "\\u005c".toList else if c = '\'' then "\\u0027".toList else [c]) ++ enc cs

theorem enc_unescapes : ∀ (x : Str), Unescapes (enc x) x
  | [] => .nil
  | c :: cs => by
    have ih := enc_unescapes cs
    rw [enc]
    split
    · rename_i hc
      subst hc
      exact .four '0' '0' '5' 'c' '\\' 0x5c (enc cs) cs (by decide) ((hexCode_iff _ _).1 (by decide)) (Or.inl rfl) ih
    split
    · rename_i hc
      subst hc
      exact .four '0' '0' '2' '7' '\'' 0x27 (enc cs) cs (by decide) ((hexCode_iff _ _).1 (by decide)) (Or.inl rfl) ih
    · rename_i hc _
      exact .char c (enc cs) cs hc ih

theorem enc_noquote : ∀ (x : Str), '\'' ∉ enc x
  | [] => by simp [enc]
  | c :: cs => by
    have ih := enc_noquote cs
    rw [enc, List.mem_append, not_or]
    refine ⟨?_, ih⟩
    split
    · decide
    split
    · decide
    · rename_i h
      intro hm
      exact h (List.mem_singleton.1 hm).symm

theorem guarded_noquote : ∀ (c : Str) (b : Bool), '\'' ∉ c → guarded b c = true
  | [], _, _ => rfl
  | x :: xs, b, h => by
    simp only [List.mem_cons, not_or] at h
    rw [guarded, if_neg (fun e => h.1 e.symm)]
    exact guarded_noquote xs _ h.2

theorem enc_last : ∀ (x : Str), (enc x).getLast? ≠ some '\\'
  | [] => by simp [enc]
  | c :: cs => by
    have ih := enc_last cs
    rw [enc, List.getLast?_append]
    cases h : (enc cs).getLast? with
    | some z => rw [h] at ih; simpa using ih
    | none =>
      rw [Option.none_or]
      split
      · decide
      split
      · decide
      · rename_i h1 _
        simpa using h1

theorem enc_plain (x : Str) : PlainStr (enc x) :=
  ⟨guarded_noquote _ _ (enc_noquote x), enc_last x, fun h => enc_noquote x (List.mem_of_getLast? h)⟩

/-- C82.  Every string whatsoever can be written as the regular expression, format, content type, name or example
of a definition. -/
theorem C82_any_string (x : Str) : ∃ c, PlainStr c ∧ Says c x :=
  ⟨enc x, enc_plain x, by unfold Says; rw [trim_plain (enc_plain x)]; exact enc_unescapes x⟩

/-- C82.  The example of an `equalTo`, `type` or `notEmpty` is the text between the quotes as it stands: escape
sequences are kept. -/
theorem C82_example_verbatim {L : Lib} {v c : Str} (hc : PlainStr c)
    (hl : Laid ["matching".toList, lpar, "type".toList, comma, quoted c, rpar] v) :
    parse L v = .ok ⟨c, .string, [.inl .type], none, v⟩ := by
  have hm : ExpMeans L v (.matching (.type (.lit (.str c)))) ⟨litText (.str c), .string, [.inl .type], none, v⟩ :=
    .matching _ _ _ _ _ (.type _ _ (.lit _))
  have ht : litText (.str c) = c := trim_plain hc
  rw [ht] at hm
  exact C82_documented_partial (e := .matching (.type (.lit (.str c)))) (es := []) (by intro x hx; rw [List.mem_singleton.1 hx]; exact hc)
    (.cons _ _ _ _ hm .nil) (combines_one rfl) (by simpa [defWords, expWords, ruleWords, argWords, moreWords, litWord] using hl)

/-! ## Recognising definitions -/

/-- The first word of an expression. -/
def Exp.isLength : Exp → Bool
  | .atLeast _ => true
  | .atMost _ => true
  | _ => false

/-- C83.  A documented definition is recognised as one exactly when it does not start with `atLeast` or `atMost`. -/
theorem C83_recognised {L : Lib} {v : Str} {e : Exp} {es : List Exp} (hl : Laid (defWords e es) v) :
    isDefinition L v = !e.isLength := by
  have hw := laid_weight hl
  have hne : 0 < weight (expWords e) := by
    cases e <;> simp [expWords, weight] <;> omega
  have hv : v.isEmpty = false := by
    cases v with
    | nil =>
      unfold defWords at hw
      rw [weight_append] at hw
      simp at hw
      omega
    | cons c cs => rfl
  have key : ∀ (w : Str) (us : List Str), Laid (w :: lpar :: us) v → w.all Char.isAlpha = true → w ≠ [] →
      ∃ s', next L v = some ⟨some (wordTok w), w, s'⟩ := by
    intro w us h h1 h2
    obtain ⟨s', e1, _⟩ := next_letters (L := L) h1 h2 (stopW_lpar us) h
    exact ⟨s', e1⟩
  unfold isDefinition
  rw [hv]
  simp only [Bool.false_eq_true, if_false]
  cases e with
  | matching r =>
    obtain ⟨s', h⟩ := key _ _ hl (by decide) (by decide)
    rw [h]
    have : wordTok "matching".toList = .matching := by decide
    simp only [this]
    rfl
  | notEmpty a =>
    obtain ⟨s', h⟩ := key _ _ hl (by decide) (by decide)
    rw [h]
    have : wordTok "notEmpty".toList = .notEmpty := by decide
    simp only [this]
    rfl
  | eachKey a =>
    obtain ⟨s', h⟩ := key _ _ hl (by decide) (by decide)
    rw [h]
    have : wordTok "eachKey".toList = .eachKey := by decide
    simp only [this]
    rfl
  | eachValue a =>
    obtain ⟨s', h⟩ := key _ _ hl (by decide) (by decide)
    rw [h]
    have : wordTok "eachValue".toList = .eachValue := by decide
    simp only [this]
    rfl
  | atLeast a =>
    obtain ⟨s', h⟩ := key _ _ hl (by decide) (by decide)
    rw [h]
    have : wordTok "atLeast".toList = .atLeast := by decide
    simp only [this]
    rfl
  | atMost a =>
    obtain ⟨s', h⟩ := key _ _ hl (by decide) (by decide)
    rw [h]
    have : wordTok "atMost".toList = .atMost := by decide
    simp only [this]
    rfl

/-! ## Longest match -/

/-- The texts each pattern of the lexer matches. -/
inductive Matches : Tok → Str → Prop where
  | keyword (w : Str) (t : Tok) : (w, t) ∈ [("matching".toList, Tok.matching), ("notEmpty".toList, .notEmpty),
      ("eachKey".toList, .eachKey), ("eachValue".toList, .eachValue), ("atLeast".toList, .atLeast),
      ("atMost".toList, .atMost), ("true".toList, .boolean), ("false".toList, .boolean), ("null".toList, .null),
      ("(".toList, .leftBracket), (")".toList, .rightBracket), (",".toList, .comma), ("$".toList, .dollar)] → Matches t w
  | id (w : Str) : w ≠ [] → (∀ c ∈ w, c.isAlpha = true) → Matches .id w
  | string (c : Str) : guarded false c = true → Matches .string (quoted c)
  | int (ds : Str) : ds ≠ [] → (∀ c ∈ ds, c.isDigit = true) → Matches .int ('-' :: ds)
  | num (ds : Str) : ds ≠ [] → (∀ c ∈ ds, c.isDigit = true) → Matches .num ds
  | decimal (d : Char) (ds : Str) : d.isDigit = true → ds ≠ [] → (∀ c ∈ ds, c.isDigit = true) →
      Matches .decimal (d :: '.' :: ds)
  | negDecimal (d : Char) (ds : Str) : d.isDigit = true → ds ≠ [] → (∀ c ∈ ds, c.isDigit = true) →
      Matches .decimal ('-' :: d :: '.' :: ds)
  | decimalPart (ds : Str) : ds ≠ [] → (∀ c ∈ ds, c.isDigit = true) → Matches .decimalPart ('.' :: ds)

/-- A number token out of the range of its type. -/
def TooLarge (x : Str) : Prop :=
  (Matches .num x ∧ parseDigits usizeLim x = none) ∨
  ∃ ds, x = '-' :: ds ∧ Matches .int x ∧ parseDigits (i64Lim + 1) ds = none

/-- Texts matched by a pattern, by their first character. -/
def Family (c : Char) (y : Str) : Prop :=
  if c.isAlpha then ∀ x ∈ c :: y, x.isAlpha = true
  else if c.isDigit then (∀ x ∈ y, x.isDigit = true) ∨ ∃ ds, y = '.' :: ds ∧ ds ≠ [] ∧ ∀ x ∈ ds, x.isDigit = true
  else if c = '(' ∨ c = ')' ∨ c = ',' ∨ c = '$' then y = []
  else if c = '\'' then ∃ b, y = b ++ ['\''] ∧ guarded false b = true
  else if c = '-' then ∃ d ds, y = d :: ds ∧ d.isDigit = true ∧
    ((∀ x ∈ ds, x.isDigit = true) ∨ ∃ es, ds = '.' :: es ∧ es ≠ [] ∧ ∀ x ∈ es, x.isDigit = true)
  else if c = '.' then y ≠ [] ∧ ∀ x ∈ y, x.isDigit = true
  else False

theorem family_of {t : Tok} {y : Str} (h : Matches t y) : ∃ c cs, y = c :: cs ∧ Family c cs := by
  cases h with
  | keyword w t h =>
    simp only [List.mem_cons, Prod.mk.injEq, List.not_mem_nil, or_false] at h
    rcases h with ⟨rfl, _⟩ | ⟨rfl, _⟩ | ⟨rfl, _⟩ | ⟨rfl, _⟩ | ⟨rfl, _⟩ | ⟨rfl, _⟩ | ⟨rfl, _⟩ | ⟨rfl, _⟩ | ⟨rfl, _⟩ |
      ⟨rfl, _⟩ | ⟨rfl, _⟩ | ⟨rfl, _⟩ | ⟨rfl, _⟩
    · exact ⟨'m', "atching".toList, rfl, by unfold Family; rw [if_pos (by decide)]; decide⟩
    · exact ⟨'n', "otEmpty".toList, rfl, by unfold Family; rw [if_pos (by decide)]; decide⟩
    · exact ⟨'e', "achKey".toList, rfl, by unfold Family; rw [if_pos (by decide)]; decide⟩
    · exact ⟨'e', "achValue".toList, rfl, by unfold Family; rw [if_pos (by decide)]; decide⟩
    · exact ⟨'a', "tLeast".toList, rfl, by unfold Family; rw [if_pos (by decide)]; decide⟩
    · exact ⟨'a', "tMost".toList, rfl, by unfold Family; rw [if_pos (by decide)]; decide⟩
    · exact ⟨'t', "rue".toList, rfl, by unfold Family; rw [if_pos (by decide)]; decide⟩
    · exact ⟨'f', "alse".toList, rfl, by unfold Family; rw [if_pos (by decide)]; decide⟩
    · exact ⟨'n', "ull".toList, rfl, by unfold Family; rw [if_pos (by decide)]; decide⟩
    · exact ⟨'(', [], rfl, by unfold Family; rw [if_neg (by decide), if_neg (by decide), if_pos (by decide)]⟩
    · exact ⟨')', [], rfl, by unfold Family; rw [if_neg (by decide), if_neg (by decide), if_pos (by decide)]⟩
    · exact ⟨',', [], rfl, by unfold Family; rw [if_neg (by decide), if_neg (by decide), if_pos (by decide)]⟩
    · exact ⟨'$', [], rfl, by unfold Family; rw [if_neg (by decide), if_neg (by decide), if_pos (by decide)]⟩
  | id w hn hw =>
    cases y with
    | nil => exact absurd rfl hn
    | cons c cs => exact ⟨c, cs, rfl, by unfold Family; rw [if_pos (hw c (by simp))]; exact hw⟩
  | string c hc =>
    exact ⟨'\'', c ++ ['\''], rfl, by
      unfold Family
      rw [if_neg (by decide), if_neg (by decide), if_neg (by decide), if_pos rfl]
      exact ⟨c, rfl, hc⟩⟩
  | int ds hn hd =>
    cases ds with
    | nil => exact absurd rfl hn
    | cons d ds =>
      exact ⟨'-', d :: ds, rfl, by
        unfold Family
        rw [if_neg (by decide), if_neg (by decide), if_neg (by decide), if_neg (by decide), if_pos rfl]
        exact ⟨d, ds, rfl, hd d (by simp), Or.inl fun x hx => hd x (by simp [hx])⟩⟩
  | num ds hn hd =>
    cases y with
    | nil => exact absurd rfl hn
    | cons c cs =>
      have hc := hd c (by simp)
      exact ⟨c, cs, rfl, by
        unfold Family
        rw [if_neg (by rw [(digit_facts hc).2]; decide), if_pos hc]
        exact Or.inl fun x hx => hd x (by simp [hx])⟩
  | decimal d ds h1 h2 h3 =>
    exact ⟨d, '.' :: ds, rfl, by
      unfold Family
      rw [if_neg (by rw [(digit_facts h1).2]; decide), if_pos h1]
      exact Or.inr ⟨ds, rfl, h2, h3⟩⟩
  | negDecimal d ds h1 h2 h3 =>
    exact ⟨'-', d :: '.' :: ds, rfl, by
      unfold Family
      rw [if_neg (by decide), if_neg (by decide), if_neg (by decide), if_neg (by decide), if_pos rfl]
      exact ⟨d, '.' :: ds, rfl, h1, Or.inr ⟨ds, rfl, h2, h3⟩⟩⟩
  | decimalPart ds hn hd =>
    exact ⟨'.', ds, rfl, by
      unfold Family
      rw [if_neg (by decide), if_neg (by decide), if_neg (by decide), if_neg (by decide), if_neg (by decide), if_pos rfl]
      exact ⟨hn, hd⟩⟩

/-- A prefix all of whose characters satisfy `p` is no longer than the run of such characters. -/
theorem run_longest {p : Char → Bool} : ∀ (y s : Str), y <+: s → (∀ c ∈ y, p c = true) → y.length ≤ (s.takeWhile p).length
  | y, s, h, hy => (prefix_takeWhile y s h hy).length_le

theorem fraction_longest {s es : Str} (h : '.' :: es <+: s) (hn : es ≠ []) (hd : ∀ c ∈ es, c.isDigit = true) :
    ∃ f r, fraction s = some (f, r) ∧ es.length + 1 ≤ f.length := by
  obtain ⟨t, ht⟩ := h
  cases s with
  | nil => cases ht
  | cons x xs =>
    injection ht with h1 h2
    subst h1
    have hp := prefix_takeWhile es xs ⟨t, h2⟩ hd
    refine ⟨'.' :: xs.takeWhile Char.isDigit, xs.dropWhile Char.isDigit, ?_, ?_⟩
    · rw [fraction, if_neg]
      intro e
      have := hp.length_le
      rw [List.isEmpty_iff.1 e] at this
      cases es with
      | nil => exact hn rfl
      | cons a b => simp at this
    · have := hp.length_le
      simp only [List.length_cons]
      omega

theorem strEnd_longest : ∀ (s : Str) (esc : Bool) (b : Str), (b ++ ['\'']) <+: s → guarded esc b = true →
    ∃ a r, strEnd esc s = some (a, r) ∧ b.length + 1 ≤ a.length
  | [], _, b, h, _ => by
    obtain ⟨t, ht⟩ := h
    cases b <;> cases ht
  | x :: xs, esc, b, h, hg => by
    obtain ⟨t, ht⟩ := h
    rw [strEnd]
    cases b with
    | nil =>
      injection ht with h1 h2
      subst h1
      rw [if_pos rfl]
      split
      · split
        · exact ⟨_, _, rfl, by simp⟩
        · exact ⟨_, _, rfl, by simp⟩
      · exact ⟨_, _, rfl, by simp⟩
    | cons y ys =>
      injection ht with h1 h2
      subst h1
      rw [guarded] at hg
      by_cases hq : y = '\''
      · rw [if_pos hq, Bool.and_eq_true] at hg
        obtain ⟨a, r, e1, e2⟩ := strEnd_longest xs false ys ⟨t, h2⟩ hg.2
        rw [if_pos hq, if_pos hg.1, e1]
        exact ⟨_, _, rfl, by simp; omega⟩
      · rw [if_neg hq] at hg
        obtain ⟨a, r, e1, e2⟩ := strEnd_longest xs _ ys ⟨t, h2⟩ hg
        rw [if_neg hq, e1]
        exact ⟨_, _, rfl, by simp; omega⟩

theorem prefix_cons {c : Char} {y s : Str} (h : c :: y <+: s) : ∃ t, s = c :: t ∧ y <+: t := by
  obtain ⟨t, ht⟩ := h
  exact ⟨y ++ t, ht.symm, t, rfl⟩

/-- No pattern matches more than the token. -/
theorem token_longest {L : Lib} {c : Char} {cs y : Str} (hy : y <+: cs) (hf : Family c y) :
    (token L c cs).text.length ≥ y.length + 1 ∧ ((token L c cs).tok = none → TooLarge (token L c cs).text) := by
  unfold Family at hf
  unfold token
  by_cases ha : c.isAlpha = true
  · rw [if_pos ha] at hf
    rw [if_pos ha]
    have := run_longest (c :: y) (c :: cs) (by obtain ⟨t, ht⟩ := hy; exact ⟨t, by rw [← ht]; rfl⟩) hf
    exact ⟨by simpa [word] using this, by intro h; simp [word] at h⟩
  rw [if_neg ha] at hf ⊢
  by_cases hd : c.isDigit = true
  · rw [if_pos hd] at hf
    rw [if_pos hd]
    have hts : (c :: cs).takeWhile Char.isDigit = c :: cs.takeWhile Char.isDigit := List.takeWhile_cons_of_pos hd
    have hds : (c :: cs).dropWhile Char.isDigit = cs.dropWhile Char.isDigit := List.dropWhile_cons_of_pos hd
    unfold number
    simp only [hts, hds]
    have key : ∀ n : Nat, y.length + 1 ≤ n → n ≥ y.length + 1 := fun _ h => h
    rcases hf with hf | ⟨es, rfl, h1, h2⟩
    · have hrun := run_longest y cs hy hf
      split
      · rename_i f r' hfr
        exact ⟨by simp only [List.length_append, List.length_cons]; omega, by intro h; cases h⟩
      · refine ⟨by simp only [List.length_cons]; omega, ?_⟩
        intro hno
        refine Or.inl ⟨.num _ (by simp) (by
          have := takeWhile_true (p := Char.isDigit) (c :: cs)
          rwa [hts] at this), ?_⟩
        cases hp : parseDigits usizeLim (c :: cs.takeWhile Char.isDigit) with
        | none => rfl
        | some n => simp [hp] at hno
    · obtain ⟨t, rfl, ht⟩ := prefix_cons hy
      have e1 : ('.' :: t).takeWhile Char.isDigit = [] := List.takeWhile_cons_of_neg (by decide)
      have e2 : ('.' :: t).dropWhile Char.isDigit = '.' :: t := List.dropWhile_cons_of_neg (by decide)
      obtain ⟨f, r, e3, e4⟩ := fraction_longest (s := '.' :: t) (es := es) hy h1 h2
      simp only [e1, e2, List.length_singleton, if_true, e3]
      exact ⟨by simp only [List.length_append, List.length_cons, List.length_nil]; omega, by intro h; cases h⟩
  rw [if_neg hd] at hf ⊢
  by_cases hp : c = '(' ∨ c = ')' ∨ c = ',' ∨ c = '$'
  · rw [if_pos hp] at hf
    subst hf
    rcases hp with rfl | rfl | rfl | rfl <;> exact ⟨Nat.le_refl 1, fun h => by cases h⟩
  rw [if_neg hp] at hf
  rw [if_neg (fun e => hp (Or.inl e)), if_neg (fun e => hp (Or.inr (Or.inl e))), if_neg (fun e => hp (Or.inr (Or.inr (Or.inl e)))),
    if_neg (fun e => hp (Or.inr (Or.inr (Or.inr e))))]
  by_cases hq : c = '\''
  · rw [if_pos hq] at hf
    rw [if_pos hq]
    obtain ⟨b, rfl, hb⟩ := hf
    obtain ⟨a, r, e1, e2⟩ := strEnd_longest cs false b hy hb
    unfold string
    rw [e1]
    exact ⟨by simp; omega, by intro h; cases h⟩
  rw [if_neg hq] at hf ⊢
  by_cases hm : c = '-'
  · rw [if_pos hm] at hf
    rw [if_pos hm]
    obtain ⟨d, ds, rfl, h1, h2⟩ := hf
    obtain ⟨t, rfl, ht⟩ := prefix_cons hy
    have hts : (d :: t).takeWhile Char.isDigit = d :: t.takeWhile Char.isDigit := List.takeWhile_cons_of_pos h1
    have hds : (d :: t).dropWhile Char.isDigit = t.dropWhile Char.isDigit := List.dropWhile_cons_of_pos h1
    unfold negative
    simp only [hts, hds, List.isEmpty_cons, Bool.false_eq_true, if_false]
    rcases h2 with h2 | ⟨es, rfl, h3, h4⟩
    · have hrun := run_longest ds t ht h2
      split
      · rename_i f r' hfr
        exact ⟨by simp only [List.length_append, List.length_cons]; omega, by intro h; cases h⟩
      · refine ⟨by simp only [List.length_cons]; omega, ?_⟩
        intro hno
        refine Or.inr ⟨_, rfl, .int _ (by simp) (by
          have := takeWhile_true (p := Char.isDigit) (d :: t)
          rwa [hts] at this), ?_⟩
        cases hp : parseDigits (i64Lim + 1) (d :: t.takeWhile Char.isDigit) with
        | none => rfl
        | some n => simp [hp] at hno
    · obtain ⟨u, rfl, hu⟩ := prefix_cons ht
      have e1 : ('.' :: u).takeWhile Char.isDigit = [] := List.takeWhile_cons_of_neg (by decide)
      have e2 : ('.' :: u).dropWhile Char.isDigit = '.' :: u := List.dropWhile_cons_of_neg (by decide)
      obtain ⟨f, r, e3, e4⟩ := fraction_longest (s := '.' :: u) (es := es) ht h3 h4
      simp only [e1, e2, List.length_singleton, if_true, e3]
      exact ⟨by simp only [List.length_append, List.length_cons, List.length_nil]; omega, by intro h; cases h⟩
  rw [if_neg hm] at hf ⊢
  by_cases ho : c = '.'
  · rw [if_pos ho] at hf
    rw [if_pos ho]
    obtain ⟨f, r, e3, e4⟩ := fraction_longest (s := c :: cs) (es := y)
      (by subst ho; obtain ⟨t, ht⟩ := hy; exact ⟨t, by rw [← ht]; rfl⟩) hf.1 hf.2
    unfold point
    rw [e3]
    exact ⟨e4, by intro h; cases h⟩
  rw [if_neg ho] at hf
  exact absurd hf id

theorem e_word (x : Str) {t : Tok} (h : wordTok x = t) : t ∈ [Tok.matching, .notEmpty, .eachKey, .eachValue, .atLeast,
    .atMost, .boolean, .null, .id] := by
  unfold wordTok at h
  cases hl : Json.lookup x keywords with
  | none => rw [hl] at h; rw [← h]; decide
  | some t' =>
    rw [hl] at h
    have ht' : t' = t := h
    subst ht'
    have := Json.lookup_mem hl
    simp only [keywords, List.mem_cons, Prod.mk.injEq, List.not_mem_nil, or_false] at this
    rcases this with ⟨_, rfl⟩ | ⟨_, rfl⟩ | ⟨_, rfl⟩ | ⟨_, rfl⟩ | ⟨_, rfl⟩ | ⟨_, rfl⟩ | ⟨_, rfl⟩ | ⟨_, rfl⟩ | ⟨_, rfl⟩ <;> decide

theorem e_key (x : Str) (t : Tok) (h : wordTok x = t) (hid : t ≠ .id) : (x, t) ∈ [("matching".toList, Tok.matching), ("notEmpty".toList, .notEmpty),
      ("eachKey".toList, .eachKey), ("eachValue".toList, .eachValue), ("atLeast".toList, .atLeast),
      ("atMost".toList, .atMost), ("true".toList, .boolean), ("false".toList, .boolean), ("null".toList, .null),
      ("(".toList, .leftBracket), (")".toList, .rightBracket), (",".toList, .comma), ("$".toList, .dollar)] := by
  unfold wordTok at h
  cases hl : Json.lookup x keywords with
  | none => rw [hl] at h; exact absurd h.symm hid
  | some t' =>
    rw [hl] at h
    have ht' : t' = t := h
    subst ht'
    have := Json.lookup_mem hl
    simp only [keywords, List.mem_cons, Prod.mk.injEq, List.not_mem_nil, or_false] at this ⊢
    rcases this with h | h | h | h | h | h | h | h | h <;> simp [h]

theorem e_alpha {L : Lib} {c : Char} {cs : Str} (ha : c.isAlpha = false) : (token L c cs).tok ≠ some .id := by
  unfold token
  rw [if_neg (by rw [ha]; decide)]
  split
  · unfold number
    simp only
    split
    · intro h; cases h
    · simp only
      split <;> intro h <;> cases h
  split
  · intro h; cases h
  split
  · intro h; cases h
  split
  · intro h; cases h
  split
  · intro h; cases h
  split
  · unfold string
    split <;> intro h <;> cases h
  split
  · unfold negative
    simp only
    split
    · intro h; cases h
    · split
      · intro h; cases h
      · simp only
        split <;> intro h <;> cases h
  split
  · unfold point
    split <;> intro h <;> cases h
  · intro h; cases h

theorem matches_shape {L : Lib} {c : Char} {cs : Str} {t : Tok} (h : (token L c cs).tok = some t) :
    Matches t (token L c cs).text := by
  have hs := (token_inv L c cs).2 t h
  cases t with
  | string => obtain ⟨b, hb, hg⟩ := hs; rw [hb]; exact .string b hg
  | leftBracket => rw [show (token L c cs).text = _ from hs]; exact .keyword _ _ (by decide)
  | rightBracket => rw [show (token L c cs).text = _ from hs]; exact .keyword _ _ (by decide)
  | comma => rw [show (token L c cs).text = _ from hs]; exact .keyword _ _ (by decide)
  | dollar => rw [show (token L c cs).text = _ from hs]; exact .keyword _ _ (by decide)
  | num =>
    obtain ⟨n, hn⟩ := hs
    exact .num _ (parseDigits_facts hn).1 (parseDigits_facts hn).2
  | int =>
    obtain ⟨ds, n, e, hn⟩ := hs
    rw [e]
    exact .int _ (parseDigits_facts hn).1 (parseDigits_facts hn).2
  | decimal =>
    revert h
    unfold token
    split
    · intro h
      simp only [word, Option.some.injEq] at h
      have := e_word _ h
      exact absurd this (by decide)
    split
    · rename_i hd
      intro h
      have hts : (c :: cs).takeWhile Char.isDigit = c :: cs.takeWhile Char.isDigit := List.takeWhile_cons_of_pos hd
      unfold number at h ⊢
      simp only [hts] at h ⊢
      split
      · rename_i f r' hfr
        split at hfr
        · rename_i h1
          obtain ⟨_, ds, e2, e3, e4⟩ := fraction_inv hfr
          have : cs.takeWhile Char.isDigit = [] := by
            simp only [List.length_cons] at h1
            exact List.length_eq_zero_iff.1 (by omega)
          rw [this, e2]
          exact .decimal c ds hd e3 e4
        · cases hfr
      · rename_i hfr
        rw [hfr] at h
        simp only at h
        split at h <;> cases h
    split
    · intro h; cases h
    split
    · intro h; cases h
    split
    · intro h; cases h
    split
    · intro h; cases h
    split
    · unfold string
      split <;> intro h <;> cases h
    split
    · intro h
      unfold negative at h ⊢
      simp only at h ⊢
      split
      · rename_i he; rw [if_pos he] at h; cases h
      · rename_i he
        rw [if_neg he] at h
        split
        · rename_i f r' hfr
          split at hfr
          · rename_i h1
            obtain ⟨_, ds, e2, e3, e4⟩ := fraction_inv hfr
            obtain ⟨d, hd⟩ := List.length_eq_one_iff.1 h1
            rw [hd, e2]
            exact .negDecimal d ds (takeWhile_true cs d (by rw [hd]; simp)) e3 e4
          · cases hfr
        · rename_i hfr
          rw [hfr] at h
          simp only at h
          split at h <;> cases h
    split
    · unfold point
      split <;> intro h <;> cases h
    · intro h; cases h
  | decimalPart =>
    revert h
    unfold token
    split
    · intro h
      simp only [word, Option.some.injEq] at h
      have := e_word _ h
      exact absurd this (by decide)
    split
    · intro h
      unfold number at h
      simp only at h
      split at h
      · cases h
      · simp only at h
        split at h <;> cases h
    split
    · intro h; cases h
    split
    · intro h; cases h
    split
    · intro h; cases h
    split
    · intro h; cases h
    split
    · unfold string
      split <;> intro h <;> cases h
    split
    · intro h
      unfold negative at h
      simp only at h
      split at h
      · cases h
      · split at h
        · cases h
        · simp only at h
          split at h <;> cases h
    split
    · unfold point
      split
      · rename_i f r hf
        intro _
        obtain ⟨_, ds, e2, e3, e4⟩ := fraction_inv hf
        rw [e2]
        exact .decimalPart ds e3 e4
      · intro h; cases h
    · intro h; cases h
  | id =>
    obtain ⟨h1, h2⟩ := hs
    refine .id _ ?_ (List.all_eq_true.1 h1)
    intro e
    have := (token_longest (L := L) (c := c) (cs := cs) (y := []) ⟨_, rfl⟩ (by
      unfold Family
      have ha : c.isAlpha = true := by
        cases hc : c.isAlpha with
        | true => rfl
        | false =>
          exfalso
          exact e_alpha hc h
      rw [if_pos ha]
      simpa using ha)).1
    rw [e] at this
    simp at this
  | matching => exact .keyword _ _ (e_key _ _ hs.2 (by decide))
  | notEmpty => exact .keyword _ _ (e_key _ _ hs.2 (by decide))
  | eachKey => exact .keyword _ _ (e_key _ _ hs.2 (by decide))
  | eachValue => exact .keyword _ _ (e_key _ _ hs.2 (by decide))
  | atLeast => exact .keyword _ _ (e_key _ _ hs.2 (by decide))
  | atMost => exact .keyword _ _ (e_key _ _ hs.2 (by decide))
  | boolean => exact .keyword _ _ (e_key _ _ hs.2 (by decide))
  | null => exact .keyword _ _ (e_key _ _ hs.2 (by decide))

/-- **C83**, tokens: after white space, the next token is the longest text any pattern matches, a keyword rather
than a word; a token is illegal only when no pattern matches here at all or its number is out of range. -/
theorem C83_tokens {L : Lib} {s : Str} {l : Lexeme} (h : next L s = some l) :
    ∃ ws, (∀ c ∈ ws, c ∈ [' ', '\t', '\n', '\x0c']) ∧ s = ws ++ l.text ++ l.rest ∧
      (∀ t y, Matches t y → y <+: l.text ++ l.rest → y.length ≤ l.text.length) ∧
      (∀ t, l.tok = some t → Matches t l.text ∧ (t = .id → ∀ t', Matches t' l.text → t' = .id)) ∧
      (l.tok = none → TooLarge l.text ∨ ∀ t y, Matches t y → ¬ y <+: l.text ++ l.rest) := by
  obtain ⟨ws, c, cs, h1, h2, h3, h4⟩ := next_inv h
  have hti := token_inv L c cs
  rw [h4]
  refine ⟨ws, h1, by rw [List.append_assoc, ← hti.1]; exact h2, ?_, ?_, ?_⟩
  · intro t y hy hp
    rw [← hti.1] at hp
    obtain ⟨c', y', rfl, hf⟩ := family_of hy
    obtain ⟨u, hu⟩ := hp
    injection hu with hu1 hu2
    subst hu1
    exact (token_longest (L := L) ⟨u, hu2⟩ hf).1
  · intro t ht
    refine ⟨matches_shape ht, ?_⟩
    intro hid t' ht'
    subst hid
    have hs := (token_inv L c cs).2 _ ht
    obtain ⟨ha, hw⟩ := hs
    generalize hx : (token L c cs).text = x at *
    have hl : Json.lookup x keywords = none := by
      cases hl : Json.lookup x keywords with
      | none => rfl
      | some t0 =>
        exfalso
        unfold wordTok at hw
        rw [hl] at hw
        have h0 : t0 = .id := hw
        have := Json.lookup_mem hl
        rw [h0] at this
        simp [keywords] at this
    cases ht' with
    | keyword w t h =>
      exfalso
      simp only [List.mem_cons, Prod.mk.injEq, List.not_mem_nil, or_false] at h
      rcases h with ⟨rfl, _⟩ | ⟨rfl, _⟩ | ⟨rfl, _⟩ | ⟨rfl, _⟩ | ⟨rfl, _⟩ | ⟨rfl, _⟩ | ⟨rfl, _⟩ | ⟨rfl, _⟩ | ⟨rfl, _⟩ |
        ⟨rfl, _⟩ | ⟨rfl, _⟩ | ⟨rfl, _⟩ | ⟨rfl, _⟩ <;> first | exact absurd hl (by decide) | exact absurd ha (by decide)
    | id => rfl
    | string c hc => exfalso; simp [quoted] at ha
    | int ds hn hd => exfalso; simp at ha
    | num ds hn hd =>
      exfalso
      cases x with
      | nil => exact hn rfl
      | cons d ds =>
        have := (digit_facts (hd d (by simp))).2
        have h' := List.all_eq_true.1 ha d (by simp)
        rw [this] at h'
        cases h'
    | decimal d ds h1 h2 h3 => exfalso; simp at ha
    | negDecimal d ds h1 h2 h3 => exfalso; simp at ha
    | decimalPart ds hn hd => exfalso; simp at ha
  · intro hn
    by_cases hm : ∃ t y, Matches t y ∧ y <+: c :: cs
    · left
      obtain ⟨t, y, hy, hp⟩ := hm
      obtain ⟨c', y', rfl, hf⟩ := family_of hy
      obtain ⟨u, hu⟩ := hp
      injection hu with hu1 hu2
      subst hu1
      exact (token_longest (L := L) ⟨u, hu2⟩ hf).2 hn
    · right
      intro t y hy hp
      rw [← hti.1] at hp
      exact hm ⟨t, y, hy, hp⟩

/-! ## Concrete cases -/

/-- The library used below: ASCII white space, every text is a version, an illegal token is one character. -/
def L0 : Lib := ⟨UC.ascii, fun _ => true, fun _ => 0⟩

theorem L0_sane : Sane L0 := by
  intro c cs _
  rfl

/-- `  notEmpty ( 'test' ) , atMost(10)`. -/
def exText : Str := "  notEmpty ( 'test' ) , atMost(10)".toList
def exExps : Exp × List Exp := (.notEmpty (.lit (.str "test".toList)), [.atMost "10".toList])
def exMeaning : List RuleDef :=
  [⟨"test".toList, .string, [.inl .notEmpty], none, exText⟩, ⟨[], .unknown, [.inl (.maxType 10)], none, exText⟩]
def exDef : RuleDef := ⟨"test".toList, .string, [.inl .notEmpty, .inl (.maxType 10)], none, exText⟩

theorem ex_plain : ∀ x ∈ exExps.1 :: exExps.2, PlainExp x := by
  intro x hx
  simp only [exExps, List.mem_cons, List.not_mem_nil, or_false] at hx
  rcases hx with rfl | rfl
  · exact ⟨by decide, by decide, by decide⟩
  · exact ⟨10, by decide⟩

theorem ex_means : AllMean L0 exText (exExps.1 :: exExps.2) exMeaning :=
  .cons _ _ _ _ (.notEmpty _ _ _ _ (by
    have := ArgMeans.lit (.str "test".toList)
    have h : litText (.str "test".toList) = "test".toList := by decide
    rw [h] at this
    exact this)) (.cons _ _ _ _ (.atMost _ 10 (by decide)) .nil)

theorem ex_combines : Combines exText exMeaning exDef :=
  ⟨by decide, by decide, by decide, rfl, rfl, rfl⟩

theorem ex_laid : Laid (defWords exExps.1 exExps.2) exText :=
  .cons "  ".toList "notEmpty".toList _ " ( 'test' ) , atMost(10)".toList (by decide) <|
  .cons " ".toList lpar _ " 'test' ) , atMost(10)".toList (by decide) <|
  .cons " ".toList "'test'".toList _ " ) , atMost(10)".toList (by decide) <|
  .cons " ".toList rpar _ " , atMost(10)".toList (by decide) <|
  .cons " ".toList comma _ " atMost(10)".toList (by decide) <|
  .cons " ".toList "atMost".toList _ "(10)".toList (by decide) <|
  .cons [] lpar _ "10)".toList (by decide) <|
  .cons [] "10".toList _ ")".toList (by decide) <|
  .cons [] rpar _ [] (by decide) <|
  .nil [] (by decide)

/-- C82 is not vacuous. -/
theorem C82_witness : parse L0 exText = .ok exDef := C82_documented_partial ex_plain ex_means ex_combines ex_laid

/-! ## Findings -/

/-- A string that ends with an escaped backslash swallows what follows: the closing quote is taken as `\'`. -/
theorem finding_backslash_at_end :
    parse L0 "matching(regex, 'a\\\\', 'b')".toList = .err ∧
      (next L0 "'a\\\\', 'b')".toList).map (·.text) = some "'a\\\\', '".toList := ⟨rfl, rfl⟩

/-- The documented escape `\'` keeps its backslash. -/
theorem finding_quote_escape :
    parse L0 "matching(include, 'it\\'s')".toList =
      .ok ⟨"it\\'s".toList, .string, [.inl (.includes "it\\'s".toList)], none, "matching(include, 'it\\'s')".toList⟩ := rfl

/-- Quotes at the ends of a string are lost. -/
theorem finding_outer_quotes :
    parse L0 "matching(include, '\\'')".toList =
      .ok ⟨"\\".toList, .string, [.inl (.includes "\\".toList)], none, "matching(include, '\\'')".toList⟩ := rfl

/-- Escapes are processed in strings but not in the example of `type`, `equalTo` and `notEmpty`. -/
theorem finding_example_escapes :
    parse L0 "matching(type, 'a\\nb')".toList =
      .ok ⟨"a\\nb".toList, .string, [.inl .type], none, "matching(type, 'a\\nb')".toList⟩ ∧
    parse L0 "matching(include, 'a\\nb')".toList =
      .ok ⟨"a\nb".toList, .string, [.inl (.includes "a\nb".toList)], none, "matching(include, 'a\\nb')".toList⟩ := ⟨rfl, rfl⟩

/-- An illegal character at the end is ignored. -/
theorem finding_trailing :
    parse L0 "matching(boolean,true)!".toList =
      .ok ⟨"true".toList, .boolean, [.inl .boolean], none, "matching(boolean,true)!".toList⟩ := rfl

/-- What follows the point of a number is not checked. -/
theorem finding_point :
    parse L0 "matching(number,10.)".toList = .ok ⟨"10.".toList, .number, [.inl .number], none, "matching(number,10.)".toList⟩ := rfl

/-- Any word that starts with `fromProviderState` is taken for it in dates and times, and nowhere else. -/
theorem finding_prefix :
    parse L0 "matching(date, 'yyyy', fromProviderStateXX('e', '2000'))".toList =
      .ok ⟨"2000".toList, .string, [.inl (.date "yyyy".toList)], some (.providerState "e".toList (some .string)),
        "matching(date, 'yyyy', fromProviderStateXX('e', '2000'))".toList⟩ ∧
    parse L0 "matching(type, fromProviderStateXX('e', '2000'))".toList = .err := ⟨rfl, rfl⟩

/-- A decimal from a provider state has the rule for numbers. -/
theorem finding_decimal_state :
    parse L0 "matching(decimal, fromProviderState('e', 1.5))".toList =
      .ok ⟨"1.5".toList, .decimal, [.inl .number], some (.providerState "e".toList (some .decimal)),
        "matching(decimal, fromProviderState('e', 1.5))".toList⟩ := rfl

/-- `atLeast` and `atMost` alone are definitions, but not recognised as such. -/
theorem finding_length :
    parse L0 "atLeast(1)".toList = .ok ⟨[], .unknown, [.inl (.minType 1)], none, "atLeast(1)".toList⟩ ∧
    isDefinition L0 "atLeast(1)".toList = false := ⟨rfl, rfl⟩

/-- Numbers that do not fit are errors. -/
theorem finding_large : parse L0 "matching(integer, 18446744073709551616)".toList = .err := rfl

/-- A sign is accepted in a hexadecimal code. -/
theorem finding_sign :
    parse L0 "matching(include, '\\u+041')".toList =
      .ok ⟨"A".toList, .string, [.inl (.includes "A".toList)], none, "matching(include, '\\u+041')".toList⟩ := rfl


end DefExprProps
end Verif
