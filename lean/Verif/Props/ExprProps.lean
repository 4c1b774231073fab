import Verif.Expr

/-
  C38: substitution of `${name}` expressions in strings.
  C61: conversion of the substituted value to a data type.
-/

set_option autoImplicit false

namespace Verif
namespace ExprProps
open Expr

/-! ### Specification -/

/-- No `${` anywhere. -/
def NoOpen (s : Str) : Prop := ∀ a b : Str, s ≠ a ++ '$' :: '{' :: b

/-- A string made of pieces `text${name}`…, followed by a rest. -/
def template : List (Str × Str) → Str → Str
  | [], rest => rest
  | (t, n) :: ps, rest => t ++ '$' :: '{' :: (n ++ '}' :: template ps rest)

/-- A piece: the text has neither `${` nor `}`, the name has no `}`; a name that is not empty has a value. -/
def Piece (ρ : Str → Option Json) (p : Str × Str) : Prop :=
  NoOpen p.1 ∧ '}' ∉ p.1 ∧ '}' ∉ p.2 ∧ (p.2 ≠ [] → (ρ p.2).isSome)

/-- Text between expressions; nothing if empty. -/
def textValue (t : Str) : List Json := if t = [] then [] else [.str t]
/-- The value of an expression; nothing for the empty expression `${}`. -/
def nameValue (ρ : Str → Option Json) (n : Str) : List Json := if n = [] then [] else (ρ n).toList
/-- The values a template stands for, in order. -/
def values (ρ : Str → Option Json) (ps : List (Str × Str)) (rest : Str) : List Json :=
  ps.flatMap (fun p => textValue p.1 ++ nameValue ρ p.2) ++ textValue rest

/-- A single value is the result itself (with its type); otherwise the texts of all values are joined. -/
def combined : List Json → Json
  | [v] => v
  | vs => .str (vs.flatMap Json.toStr)

/-! ### Lemmas -/

theorem findOpen_none {s : Str} : findOpen s = none ↔ NoOpen s := by
  induction s with
  | nil => simp [findOpen, NoOpen]
  | cons c cs ih =>
    by_cases h : c = '$' ∧ cs.head? = some '{'
    · simp only [findOpen, if_pos h, reduceCtorEq, false_iff]
      intro hn
      obtain ⟨rfl, h2⟩ := h
      cases cs with
      | nil => simp at h2
      | cons d ds =>
        simp only [List.head?_cons, Option.some.injEq] at h2
        subst h2
        exact hn [] ds rfl
    · simp only [findOpen, if_neg h, Option.map_eq_none_iff, ih]
      constructor
      · intro hn a b hab
        cases a with
        | nil =>
          simp only [List.nil_append, List.cons.injEq] at hab
          exact h ⟨hab.1, by simp [hab.2]⟩
        | cons x xs =>
          simp only [List.cons_append, List.cons.injEq] at hab
          exact hn xs b hab.2
      · intro hn a b hab
        exact hn (c :: a) b (by simp [hab])

theorem findOpen_append {t : Str} (h : NoOpen t) (u : Str) :
    findOpen (t ++ '$' :: '{' :: u) = some t.length := by
  induction t with
  | nil => simp [findOpen]
  | cons c cs ih =>
    have hcs : NoOpen cs := fun a b hab => h (c :: a) b (by simp [hab])
    have hc : ¬ (c = '$' ∧ (cs ++ '$' :: '{' :: u).head? = some '{') := by
      rintro ⟨rfl, h2⟩
      cases cs with
      | nil => simp at h2
      | cons d ds =>
        simp only [List.cons_append, List.head?_cons, Option.some.injEq] at h2
        subst h2
        exact h [] ds rfl
    simp only [List.cons_append, findOpen, if_neg hc, ih hcs, Option.map_some, List.length_cons]

theorem findOpen_some {s : Str} {i : Nat} : findOpen s = some i →
    ∃ t u : Str, s = t ++ '$' :: '{' :: u ∧ NoOpen t ∧ t.length = i := by
  induction s generalizing i with
  | nil => simp [findOpen]
  | cons c cs ih =>
    by_cases h : c = '$' ∧ cs.head? = some '{'
    · simp only [findOpen, if_pos h, Option.some.injEq]
      rintro rfl
      obtain ⟨rfl, h2⟩ := h
      cases cs with
      | nil => simp at h2
      | cons d ds =>
        simp only [List.head?_cons, Option.some.injEq] at h2
        subst h2
        exact ⟨[], ds, rfl, findOpen_none.1 rfl, rfl⟩
    · simp only [findOpen, if_neg h, Option.map_eq_some_iff]
      rintro ⟨j, hj, rfl⟩
      obtain ⟨t, u, rfl, hn, rfl⟩ := ih hj
      refine ⟨c :: t, u, rfl, ?_, rfl⟩
      intro a b hab
      cases a with
      | nil =>
        simp only [List.nil_append, List.cons.injEq] at hab
        exact h ⟨hab.1, by simp [hab.2]⟩
      | cons x xs =>
        simp only [List.cons_append, List.cons.injEq] at hab
        exact hn xs b hab.2

theorem findClose_none {s : Str} : findClose s = none ↔ '}' ∉ s := by
  induction s with
  | nil => simp [findClose]
  | cons c cs ih =>
    by_cases h : c = '}'
    · simp [findClose, h]
    · simp [findClose, h, ih, Ne.symm h]

theorem findClose_append {t : Str} (h : '}' ∉ t) (u : Str) : findClose (t ++ '}' :: u) = some t.length := by
  induction t with
  | nil => simp [findClose]
  | cons c cs ih =>
    simp only [List.mem_cons, not_or] at h
    simp [findClose, Ne.symm h.1, ih h.2]

theorem findClose_some {s : Str} {i : Nat} : findClose s = some i →
    ∃ t u : Str, s = t ++ '}' :: u ∧ '}' ∉ t ∧ t.length = i := by
  induction s generalizing i with
  | nil => simp [findClose]
  | cons c cs ih =>
    by_cases h : c = '}'
    · simp only [findClose, if_pos h, Option.some.injEq]
      rintro rfl
      exact ⟨[], cs, by simp [h], by simp, rfl⟩
    · simp only [findClose, if_neg h, Option.map_eq_some_iff]
      rintro ⟨j, hj, rfl⟩
      obtain ⟨t, u, rfl, hn, rfl⟩ := ih hj
      exact ⟨c :: t, u, rfl, by simp [Ne.symm h, hn], rfl⟩

theorem pushText_eq (r : List Json) (t : Str) : pushText r t = r ++ textValue t := by
  cases t <;> simp [pushText, textValue]

/-- One iteration on `t${n}s`. -/
theorem loop_piece (ρ : Str → Option Json) (fuel : Nat) (t n s : Str) (r : List Json) (ht : NoOpen t)
    (htc : '}' ∉ t) (hn : '}' ∉ n) :
    loop ρ (fuel + 1) (t ++ '$' :: '{' :: (n ++ '}' :: s)) r =
      if n = [] then loop ρ fuel s (r ++ textValue t)
      else match ρ n with
        | some v => loop ρ fuel s (r ++ textValue t ++ [v])
        | none => .err := by
  have e1 : t ++ '$' :: '{' :: (n ++ '}' :: s) = (t ++ '$' :: '{' :: n) ++ '}' :: s := by simp
  have hc : '}' ∉ t ++ '$' :: '{' :: n := by simp [htc, hn]
  have e2 : findClose (t ++ '$' :: '{' :: (n ++ '}' :: s)) = some (t.length + n.length + 2) := by
    rw [e1, findClose_append hc]; simp; omega
  have e3 : (t ++ '$' :: '{' :: (n ++ '}' :: s)).take t.length = t := by simp
  have e4 : (t ++ '$' :: '{' :: (n ++ '}' :: s)).drop (t.length + n.length + 2 + 1) = s := by
    rw [e1]
    have : t.length + n.length + 2 + 1 = (t ++ '$' :: '{' :: n).length + 1 := by simp; omega
    rw [this, ← List.drop_drop, List.drop_left]; simp
  have e5 : ((t ++ '$' :: '{' :: (n ++ '}' :: s)).take (t.length + n.length + 2)).drop (t.length + 2) = n := by
    rw [e1]
    have : t.length + n.length + 2 = (t ++ '$' :: '{' :: n).length := by simp; omega
    rw [this, List.take_left, ← List.drop_drop, List.drop_left]; simp
  simp only [loop, findOpen_append ht, e2, e3, e4, e5, pushText_eq]
  rw [if_neg (by omega)]
  by_cases h : n = []
  · subst h
    simp
  · have : 0 < n.length := List.length_pos_iff.2 h
    rw [if_pos (by omega), if_neg h]
    cases ρ n <;> rfl

/-- Going through the pieces of a template. -/
theorem loop_template (ρ : Str → Option Json) : ∀ (ps : List (Str × Str)) (fuel : Nat) (s : Str) (r : List Json),
    (∀ p ∈ ps, Piece ρ p) →
    loop ρ (fuel + ps.length) (template ps s) r =
      loop ρ fuel s (r ++ ps.flatMap (fun p => textValue p.1 ++ nameValue ρ p.2)) := by
  intro ps
  induction ps with
  | nil => intro fuel s r _; simp [template]
  | cons p ps ih =>
    intro fuel s r h
    obtain ⟨t, n⟩ := p
    obtain ⟨h1, h2, h3, h4⟩ := h (t, n) (by simp)
    simp only [List.length_cons, ← Nat.add_assoc, template]
    rw [loop_piece ρ _ t n _ r h1 h2 h3]
    by_cases hn : n = []
    · subst hn
      rw [if_pos rfl, ih _ _ _ (fun p hp => h p (by simp [hp]))]
      simp [nameValue]
    · obtain ⟨v, hv⟩ := Option.isSome_iff_exists.1 (h4 hn)
      rw [if_neg hn, hv]
      simp only
      rw [ih _ _ _ (fun p hp => h p (by simp [hp]))]
      simp [nameValue, hn, hv]

theorem template_length (ps : List (Str × Str)) (s : Str) : ps.length + s.length ≤ (template ps s).length := by
  induction ps with
  | nil => simp [template]
  | cons p ps ih =>
    obtain ⟨t, n⟩ := p
    simp only [template, List.length_cons, List.length_append]
    omega

theorem replace_template (ρ : Str → Option Json) (ps : List (Str × Str)) (s : Str) (h : ∀ p ∈ ps, Piece ρ p) :
    ∃ fuel, s.length < fuel ∧ replaceExpressions ρ (template ps s) =
      (loop ρ fuel s (ps.flatMap (fun p => textValue p.1 ++ nameValue ρ p.2))).map fun (result, buffer) =>
        combined (result ++ textValue buffer) := by
  refine ⟨(template ps s).length + 1 - ps.length, ?_, ?_⟩
  · have := template_length ps s
    omega
  · have hl := template_length ps s
    have e : (template ps s).length + 1 = ((template ps s).length + 1 - ps.length) + ps.length := by omega
    unfold replaceExpressions
    rw [e, loop_template ρ ps _ s [] h]
    rw [← e]
    simp only [List.nil_append]
    congr 1
    funext x
    obtain ⟨r, b⟩ := x
    rw [pushText_eq]
    match r ++ textValue b with
    | [] => rfl
    | [_] => rfl
    | _ :: _ :: _ => rfl

theorem parse_eq_replace (ρ : Str → Option Json) (s : Str) : parseExpression ρ s = replaceExpressions ρ s := by
  unfold parseExpression containsExpressions
  cases h : findOpen s with
  | some i => simp
  | none =>
    simp only [Option.isSome_none, Bool.false_eq_true, if_false, replaceExpressions, loop, h, Res.map_ok,
      pushText_eq, List.nil_append]
    cases s <;> simp [textValue]

/-! ### C38 -/

/-- In a string `t1${n1}t2${n2}…rest` whose texts contain no stray brace, every expression is replaced by
the value of its name, the text around the expressions is unchanged; a single value keeps its type. -/
theorem C38_substitution (ρ : Str → Option Json) (ps : List (Str × Str)) (rest : Str) (h : ∀ p ∈ ps, Piece ρ p)
    (hr : NoOpen rest) : parseExpression ρ (template ps rest) = .ok (combined (values ρ ps rest)) := by
  obtain ⟨fuel, hf, e⟩ := replace_template ρ ps rest h
  rw [parse_eq_replace, e]
  cases fuel with
  | zero => omega
  | succ f => simp [loop, findOpen_none.2 hr, values]

/-- The first expression without a value is an error, whatever follows it. -/
theorem C38_undefined (ρ : Str → Option Json) (ps : List (Str × Str)) (t n s : Str) (h : ∀ p ∈ ps, Piece ρ p)
    (ht : NoOpen t) (htc : '}' ∉ t) (hn : '}' ∉ n) (hne : n ≠ []) (hv : ρ n = none) :
    parseExpression ρ (template ps (t ++ '$' :: '{' :: (n ++ '}' :: s))) = .err := by
  obtain ⟨fuel, hf, e⟩ := replace_template ρ ps _ h
  rw [parse_eq_replace, e]
  cases fuel with
  | zero => omega
  | succ f =>
    rw [loop_piece ρ f t n s _ ht htc hn, if_neg hne, hv]
    rfl

/-- An expression without a closing brace is an error. -/
theorem C38_unclosed (ρ : Str → Option Json) (ps : List (Str × Str)) (t u : Str) (h : ∀ p ∈ ps, Piece ρ p)
    (ht : NoOpen t) (htc : '}' ∉ t) (hu : '}' ∉ u) :
    parseExpression ρ (template ps (t ++ '$' :: '{' :: u)) = .err := by
  obtain ⟨fuel, hf, e⟩ := replace_template ρ ps _ h
  rw [parse_eq_replace, e]
  cases fuel with
  | zero => omega
  | succ f =>
    have : findClose (t ++ '$' :: '{' :: u) = none := findClose_none.2 (by simp [htc, hu])
    simp [loop, findOpen_append ht, this]

/-- A closing brace in the text before an expression panics: the property is false. -/
theorem C38_stray_brace_panics (ρ : Str → Option Json) (ps : List (Str × Str)) (t u : Str)
    (h : ∀ p ∈ ps, Piece ρ p) (ht : NoOpen t) (htc : '}' ∈ t) :
    parseExpression ρ (template ps (t ++ '$' :: '{' :: u)) = .panic := by
  obtain ⟨fuel, hf, e⟩ := replace_template ρ ps _ h
  rw [parse_eq_replace, e]
  have hs : ∃ a b : Str, t = a ++ '}' :: b ∧ '}' ∉ a := by
    cases hc : findClose t with
    | none => exact absurd htc (findClose_none.1 hc)
    | some i =>
      obtain ⟨x, y, h1, h2, -⟩ := findClose_some hc
      exact ⟨x, y, h1, h2⟩
  obtain ⟨a, b, rfl, ha⟩ := hs
  cases fuel with
  | zero => omega
  | succ f =>
    have hc : findClose ((a ++ '}' :: b) ++ '$' :: '{' :: u) = some a.length := by
      rw [List.append_assoc, List.cons_append, findClose_append ha]
    simp only [loop, findOpen_append ht, hc]
    rw [if_pos (by simp)]
    rfl

/-- The four cases above cover every string and every value map. -/
theorem C38_cases (ρ : Str → Option Json) (s : Str) :
    ∃ ps : List (Str × Str), (∀ p ∈ ps, Piece ρ p) ∧
      ((∃ rest, s = template ps rest ∧ NoOpen rest) ∨
       (∃ t n u, s = template ps (t ++ '$' :: '{' :: (n ++ '}' :: u)) ∧ NoOpen t ∧ '}' ∉ t ∧ '}' ∉ n ∧ n ≠ [] ∧
          ρ n = none) ∨
       (∃ t u, s = template ps (t ++ '$' :: '{' :: u) ∧ NoOpen t ∧ '}' ∉ t ∧ '}' ∉ u) ∨
       (∃ t u, s = template ps (t ++ '$' :: '{' :: u) ∧ NoOpen t ∧ '}' ∈ t)) := by
  induction hl : s.length using Nat.strongRecOn generalizing s with
  | _ len ih =>
    cases ho : findOpen s with
    | none => exact ⟨[], by simp, Or.inl ⟨s, rfl, findOpen_none.1 ho⟩⟩
    | some i =>
      obtain ⟨t, u, rfl, ht, -⟩ := findOpen_some ho
      by_cases htc : '}' ∈ t
      · exact ⟨[], by simp, Or.inr (Or.inr (Or.inr ⟨t, u, rfl, ht, htc⟩))⟩
      by_cases hu : '}' ∈ u
      · cases hc : findClose u with
        | none => exact absurd hu (findClose_none.1 hc)
        | some k =>
          obtain ⟨n, w, rfl, hn, -⟩ := findClose_some hc
          by_cases hd : n ≠ [] ∧ ρ n = none
          · exact ⟨[], by simp, Or.inr (Or.inl ⟨t, n, w, rfl, ht, htc, hn, hd.1, hd.2⟩)⟩
          · have hp : Piece ρ (t, n) := ⟨ht, htc, hn, fun hne => by
              cases hv : ρ n with
              | none => exact absurd ⟨hne, hv⟩ hd
              | some v => rfl⟩
            obtain ⟨ps, h1, h2⟩ := ih w.length (by subst hl; simp; omega) w rfl
            refine ⟨(t, n) :: ps, ?_, ?_⟩
            · intro p hm
              rcases List.mem_cons.1 hm with rfl | hm
              · exact hp
              · exact h1 p hm
            · rcases h2 with ⟨r, rfl, h⟩ | ⟨a, b, c, rfl, h⟩ | ⟨a, b, rfl, h⟩ | ⟨a, b, rfl, h⟩
              · exact Or.inl ⟨r, rfl, h⟩
              · exact Or.inr (Or.inl ⟨a, b, c, rfl, h⟩)
              · exact Or.inr (Or.inr (Or.inl ⟨a, b, rfl, h⟩))
              · exact Or.inr (Or.inr (Or.inr ⟨a, b, rfl, h⟩))
      · exact ⟨[], by simp, Or.inr (Or.inr (Or.inl ⟨t, u, rfl, ht, htc, hu⟩))⟩

/-- Substitution never panics on a string in which no closing brace comes before its first `${`
and between the end of an expression and the next `${`; it panics otherwise, unless an error comes first. -/
theorem C38_panic_iff (ρ : Str → Option Json) (s : Str) :
    parseExpression ρ s = .panic ↔
      ∃ (ps : List (Str × Str)) (t u : Str), (∀ p ∈ ps, Piece ρ p) ∧ NoOpen t ∧ '}' ∈ t ∧
        s = template ps (t ++ '$' :: '{' :: u) := by
  constructor
  · intro h
    obtain ⟨ps, hp, ⟨r, rfl, h1⟩ | ⟨t, n, u, rfl, h1, h2, h3, h4, h5⟩ | ⟨t, u, rfl, h1, h2, h3⟩ | ⟨t, u, rfl, h1, h2⟩⟩ :=
      C38_cases ρ s
    · rw [C38_substitution ρ ps r hp h1] at h; cases h
    · rw [C38_undefined ρ ps t n u hp h1 h2 h3 h4 h5] at h; cases h
    · rw [C38_unclosed ρ ps t u hp h1 h2 h3] at h; cases h
    · exact ⟨ps, t, u, hp, h1, h2, rfl⟩
  · rintro ⟨ps, t, u, hp, h1, h2, rfl⟩
    exact C38_stray_brace_panics ρ ps t u hp h1 h2

/-- A string without a closing brace never panics (a simple sufficient condition), and a string without `${`
is returned unchanged. -/
theorem C38_no_brace_partial (ρ : Str → Option Json) (s : Str) (h : '}' ∉ s) : parseExpression ρ s ≠ .panic := by
  intro hp
  obtain ⟨ps, t, u, -, -, h2, rfl⟩ := (C38_panic_iff ρ s).1 hp
  apply h
  clear hp h
  induction ps with
  | nil => simp [template, h2]
  | cons p ps ih =>
    obtain ⟨a, b⟩ := p
    simp [template]

theorem C38_plain (ρ : Str → Option Json) (s : Str) (h : NoOpen s) : parseExpression ρ s = .ok (.str s) := by
  simp [parseExpression, containsExpressions, findOpen_none.2 h]

/-! Concrete cases. -/

/-- `a` has the value `100`, `b` the value `x`. -/
def exampleMap (n : Str) : Option Json :=
  if n = ['a'] then some (.num (.pos 100)) else if n = ['b'] then some (.str ['x']) else none

example : parseExpression exampleMap "/u/${a}/${b}${}.".toList = .ok (.str "/u/100/x.".toList) := by decide
example : parseExpression exampleMap "${a}".toList = .ok (.num (.pos 100)) := by decide
example : parseExpression exampleMap "$${b}}".toList = .ok (.str "$x}".toList) := by decide
example : parseExpression exampleMap "}${a}".toList = .panic := by decide
example : parseExpression exampleMap "${c}".toList = .err := by decide
example : parseExpression exampleMap "x${a".toList = .err := by decide
example : Piece exampleMap (['x', '$'], ['a']) :=
  ⟨findOpen_none.1 rfl, by decide, by decide, fun _ => rfl⟩
example : template [(['x', '$'], ['a']), ([], ['b'])] ['y'] = "x$${a}${b}y".toList := by decide

/-! ### C61: data types -/

/-- The kind of value a data type stands for. -/
def HasType : DataType → Json → Prop
  | .string, j => ∃ s, j = .str s
  | .integer, j => j.isInt = true
  | .float, j => j.isFloat = true
  | .decimal, j => j.isFloat = true
  | .raw, _ => True
  | .boolean, j => ∃ b, j = .bool b

/-- A successful conversion has the kind of the data type (parsing a text as a float is only assumed to give
a float). -/
theorem C61_has_type (f : F64) (hf : ∀ s j, f.parse s = some j → j.isFloat = true) (d : DataType) (v r : Json)
    (h : asJson f d v = .ok r) : HasType d r := by
  have hfl : ∀ v r, asJson.toFloat f v = .ok r → r.isFloat = true := by
    intro v r h
    match v with
    | .null => simp only [asJson.toFloat, Res.ok.injEq] at h; subst h; rfl
    | .bool b => simp only [asJson.toFloat, Res.ok.injEq] at h; subst h; rfl
    | .num (.flt _) => simp only [asJson.toFloat, Res.ok.injEq] at h; subst h; rfl
    | .num (.pos _) => simp only [asJson.toFloat, Res.ok.injEq] at h; subst h; rfl
    | .num (.neg _) => simp only [asJson.toFloat, Res.ok.injEq] at h; subst h; rfl
    | .str s =>
      simp only [asJson.toFloat] at h
      cases hp : f.parse s with
      | none => simp [hp, okOr] at h
      | some j =>
        simp only [hp, okOr, Res.ok.injEq] at h
        subst h
        exact hf s j hp
    | .arr _ => simp [asJson.toFloat] at h
    | .obj _ => simp [asJson.toFloat] at h
  cases d with
  | string => cases v <;> simp only [asJson, Res.ok.injEq] at h <;> exact ⟨_, h.symm⟩
  | float => exact hfl v r h
  | decimal => exact hfl v r h
  | raw => trivial
  | integer =>
    match v with
    | .null => simp only [asJson, Res.ok.injEq] at h; subst h; rfl
    | .bool b => simp only [asJson, Res.ok.injEq] at h; subst h; rfl
    | .num (.flt x) =>
      simp only [asJson, Res.ok.injEq] at h
      subst h
      cases hx : f.toI64 x <;> rfl
    | .num (.pos _) => simp only [asJson, Res.ok.injEq] at h; subst h; rfl
    | .num (.neg _) => simp only [asJson, Res.ok.injEq] at h; subst h; rfl
    | .str s =>
      simp only [asJson] at h
      cases hp : parseUsize s with
      | none => simp [hp, okOr] at h
      | some n => simp only [hp, okOr, Option.map_some, Res.ok.injEq] at h; subst h; rfl
    | .arr _ => simp [asJson] at h
    | .obj _ => simp [asJson] at h
  | boolean =>
    match v with
    | .null => simp only [asJson, Res.ok.injEq] at h; exact ⟨_, h.symm⟩
    | .bool b => simp only [asJson, Res.ok.injEq] at h; exact ⟨_, h.symm⟩
    | .num (.flt x) => simp only [asJson, Res.ok.injEq] at h; exact ⟨_, h.symm⟩
    | .num (.pos _) => simp only [asJson, Res.ok.injEq] at h; exact ⟨_, h.symm⟩
    | .num (.neg _) => simp only [asJson, Res.ok.injEq] at h; exact ⟨_, h.symm⟩
    | .str s =>
      simp only [asJson] at h
      cases hp : parseBool s with
      | none => simp [hp, okOr] at h
      | some n => simp only [hp, okOr, Option.map_some, Res.ok.injEq] at h; exact ⟨_, h.symm⟩
    | .arr _ => simp [asJson] at h
    | .obj _ => simp [asJson] at h

/-- A value that has the kind of the data type already is unchanged. -/
theorem C61_unchanged (f : F64) (d : DataType) (v : Json) (h : HasType d v) : asJson f d v = .ok v := by
  cases d with
  | string => obtain ⟨s, rfl⟩ := h; rfl
  | integer =>
    match v, h with
    | .num (.pos _), _ => rfl
    | .num (.neg _), _ => rfl
  | float =>
    match v, h with
    | .num (.flt _), _ => rfl
  | decimal =>
    match v, h with
    | .num (.flt _), _ => rfl
  | raw => rfl
  | boolean => obtain ⟨b, rfl⟩ := h; rfl

/-- Conversion is never a panic, and is defined for every null, boolean and number. -/
theorem C61_total (f : F64) (d : DataType) (v : Json) : asJson f d v ≠ .panic ∧
    (v.isNumber = true ∨ v = .null ∨ (∃ b, v = .bool b) → ∃ r, asJson f d v = .ok r) := by
  have hk : ∀ {A : Type} (o : Option A), okOr o ≠ .panic := by intro A o; cases o <;> simp [okOr]
  constructor
  · match d, v with
    | .string, v => cases v <;> simp [asJson]
    | .raw, v => simp [asJson]
    | .integer, .num n => cases n <;> simp [asJson]
    | .integer, .null => simp [asJson]
    | .integer, .bool _ => simp [asJson]
    | .integer, .str _ => exact hk _
    | .integer, .arr _ => simp [asJson]
    | .integer, .obj _ => simp [asJson]
    | .boolean, .num n => cases n <;> simp [asJson]
    | .boolean, .null => simp [asJson]
    | .boolean, .bool _ => simp [asJson]
    | .boolean, .str _ => exact hk _
    | .boolean, .arr _ => simp [asJson]
    | .boolean, .obj _ => simp [asJson]
    | .float, .num n => cases n <;> simp [asJson, asJson.toFloat]
    | .float, .null => simp [asJson, asJson.toFloat]
    | .float, .bool _ => simp [asJson, asJson.toFloat]
    | .float, .str _ => exact hk _
    | .float, .arr _ => simp [asJson, asJson.toFloat]
    | .float, .obj _ => simp [asJson, asJson.toFloat]
    | .decimal, .num n => cases n <;> simp [asJson, asJson.toFloat]
    | .decimal, .null => simp [asJson, asJson.toFloat]
    | .decimal, .bool _ => simp [asJson, asJson.toFloat]
    | .decimal, .str _ => exact hk _
    | .decimal, .arr _ => simp [asJson, asJson.toFloat]
    | .decimal, .obj _ => simp [asJson, asJson.toFloat]
  · rintro (h | rfl | ⟨b, rfl⟩)
    · match v, h with
      | .num n, _ => cases d <;> cases n <;> exact ⟨_, rfl⟩
    · cases d <;> exact ⟨_, rfl⟩
    · cases d <;> exact ⟨_, rfl⟩

/-- An integer text converts to the integer it denotes, for every number below `2^64`. -/
theorem C61_integer_text_partial (f : F64) (n : Nat) (h : n < usizeLim) :
    asJson f .integer (.str (natStr n)) = .ok (.num (.pos n)) := by
  simp [asJson, parseUsize_natStr h, okOr]

/-- A text that denotes a negative integer is rejected, although negative numbers are accepted. -/
theorem C61_negative_text_rejected (f : F64) (s : Str) : asJson f .integer (.str ('-' :: s)) = .err ∧
    asJson f .integer (.num (.neg 4)) = .ok (.num (.neg 4)) := by
  refine ⟨?_, rfl⟩
  have : parseUsize ('-' :: s) = none := by
    simp [parseUsize, parseDigits, digitsVal]
  simp [asJson, this, okOr]

/-- **C61**, numbers as booleans: a whole number converts to true exactly if it is positive. -/
theorem C61_boolean_number (f : F64) (i : Int) :
    asJson f .boolean (intJson i) = .ok (.bool (decide (i > 0))) := by
  unfold intJson
  split <;> simp only [asJson]
  · congr 3; simp
  · simp

/-- **C61**, booleans as numbers. -/
theorem C61_integer_boolean (f : F64) (b : Bool) : asJson f .integer (.bool b) = .ok (intJson (if b then 1 else 0)) := by
  cases b <;> rfl


end ExprProps
end Verif
