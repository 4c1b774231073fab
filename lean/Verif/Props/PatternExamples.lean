import Verif.Props.PatternDenotation

/-
  Where C70 and C71 fail without their conditions, and concrete patterns that meet the conditions.
-/

set_option autoImplicit false

namespace Verif.PatternProps
open Verif.Path Verif.Rules Verif.Matchers Verif.Compare Verif.CompareProps Verif.Patterns
open Verif.LocalityProps Verif.PathProps Verif.RuleProps

/-- `each_like(each_like(term("a", "a")))`. -/
def nested : Pattern := .eachLike (.eachLike (.term "a".toList "a".toList) 1) 1

/-- `[["b"]]`, which the regex of `nested` does not accept. -/
def nestedB : Json := .arr [.arr [.str "b".toList]]

/-- **C71**, why an `each_like` directly inside an `each_like` is excluded: the rule of the inner elements ties with
the `[*].*` rule of the outer `each_like`, so whether `[["b"]]` is accepted depends on the iteration order of the
table. -/
theorem C71_nested_each_like_ambiguous : ∃ rules rules' : List (DocPath × RuleList),
    rules.Perm (jsonBody nested).2.rules ∧ rules'.Perm (jsonBody nested).2.rules ∧
    compareJson Env.simple rootPath (jsonBody nested).1 nestedB ⟨⟨.body, rules⟩, .noUnexpectedKeys⟩ = .ok () ∧
    compareJson Env.simple rootPath (jsonBody nested).1 nestedB ⟨⟨.body, rules'⟩, .noUnexpectedKeys⟩ ≠ .ok () :=
  ⟨(jsonBody nested).2.rules.reverse, (jsonBody nested).2.rules, List.reverse_perm _, .refl _, by decide, by decide⟩

/-- The outer elements of `nested` are not covered by `Unambiguous`. -/
example : ¬ Everywhere Unambiguous nested := by
  simp [Everywhere, nested, Unambiguous, core, ByType]

/-- An object matching pattern with a regex on one of its keys. -/
def objMatching : Pattern :=
  .objectMatching (.obj [("a".toList, .term "1".toList "1".toList), ("b".toList, .json (.str "x".toList))]) []

/-- **C70**, why `ObjectMatching` is excluded: the rules of a nested pattern are moved to `*`, so that the rule of one
key applies to all the keys, and the example of the pattern itself is rejected. -/
theorem C70_object_matching_fails : compareJson Env.simple rootPath (jsonBody objMatching).1
    (jsonBody objMatching).1 ⟨⟨.body, (jsonBody objMatching).2.rules⟩, .noUnexpectedKeys⟩ ≠ .ok () := by decide

/-- An object pattern with two keys that read as the same index. -/
def sameIndex : Pattern := .obj [("007".toList, .json (.str "x".toList)), ("7".toList, .term "1".toList "1".toList)]

/-- **C70**, why keys such as `007` are excluded: the rule of the key `7` is also applied to the key `007`. -/
theorem C70_same_index_fails : compareJson Env.simple rootPath (jsonBody sameIndex).1
    (jsonBody sameIndex).1 ⟨⟨.body, (jsonBody sameIndex).2.rules⟩, .noUnexpectedKeys⟩ ≠ .ok () := by decide

/-- **C71**, minimum 0: an `each_like` with a minimum of 0 accepts every array, whatever its elements are. -/
theorem C71_each_like_zero (env : Env) (config : DiffConfig) (b : Bool) (p : Pattern) (l : List Json) :
    Accepts env config b (.eachLike p 0) (.arr l) := .eachLikeZero b p l

/-! ### Non-vacuity -/

/-- `{"id": like(1), "names": each_like(term("a", "ab"), min = 2), "tag": "t", "at": [like({"x": 1})]}`. -/
def sample : Pattern := .obj [
  ("id".toList, .like (.json (.num (.pos 1)))),
  ("names".toList, .eachLike (.term "a".toList "ab".toList) 2),
  ("tag".toList, .json (.str "t".toList)),
  ("at".toList, .arr [.like (.obj [("x".toList, .json (.num (.pos 1)))])])]

theorem sample_notOM : Everywhere NotObjectMatching sample := by
  simp [Everywhere, EverywhereItems, EverywhereFields, EverywhereField, sample, NotObjectMatching]

theorem sample_keys : Everywhere KeysOk sample := by
  simp only [Everywhere, EverywhereItems, EverywhereFields, EverywhereField, sample, KeysOk, and_true, true_and]
  refine ⟨⟨by decide, fun f hf i hi => ?_⟩, by decide, fun f hf i hi => ?_⟩
  · simp only [List.mem_cons, List.not_mem_nil, or_false] at hf
    rcases hf with rfl | rfl | rfl | rfl <;> exact absurd hi (by
      simp only
      intro h
      revert h
      first
        | rw [show parseUsize "id".toList = none by decide]
        | rw [show parseUsize "names".toList = none by decide]
        | rw [show parseUsize "tag".toList = none by decide]
        | rw [show parseUsize "at".toList = none by decide]
      intro h; cases h)
  · simp only [List.mem_cons, List.not_mem_nil, or_false] at hf
    subst hf
    rw [show parseUsize "x".toList = none by decide] at hi; cases hi

theorem sample_literals : Everywhere LiteralWF sample := by
  simp [Everywhere, EverywhereItems, EverywhereFields, EverywhereField, sample, LiteralWF, Json.WF]

theorem sample_unambiguous : Everywhere Unambiguous sample := by
  simp [Everywhere, EverywhereItems, EverywhereFields, EverywhereField, sample, Unambiguous, core]

theorem sample_example : Everywhere (ExampleOk Env.simple) sample := by
  simp only [Everywhere, EverywhereItems, EverywhereFields, EverywhereField, sample, ExampleOk, and_true, true_and]
  refine ⟨?_, by decide, ?_, ?_⟩ <;> simp [Json.WF]

theorem sample_short : ShortPaths (jsonBody sample).2 := by
  intro e he
  have : ∀ e ∈ (jsonBody sample).2.rules, e.1.tokens.length ≤ 58 := by decide
  exact this e he

/-- The conditions of C70 and C71 are met by `sample`. -/
example : Everywhere NotObjectMatching sample ∧ Everywhere KeysOk sample ∧ Everywhere LiteralWF sample ∧
    Everywhere Unambiguous sample ∧ Everywhere (ExampleOk Env.simple) sample ∧ ShortPaths (jsonBody sample).2 :=
  ⟨sample_notOM, sample_keys, sample_literals, sample_unambiguous, sample_example, sample_short⟩

/-- A document described by `sample` but different from its example: it is accepted. -/
def sampleDoc : Json := .obj [
  ("at".toList, .arr [.obj [("x".toList, .num (.pos 7))]]),
  ("id".toList, .num (.pos 42)),
  ("names".toList, .arr [.str "cat".toList, .str "a".toList, .str "bab".toList]),
  ("tag".toList, .str "t".toList)]

example : compareJson Env.simple rootPath (jsonBody sample).1 sampleDoc
    ⟨⟨.body, (jsonBody sample).2.rules⟩, .noUnexpectedKeys⟩ = .ok () := by decide

/-- One with too few names is rejected. -/
example : compareJson Env.simple rootPath (jsonBody sample).1 (.obj [
      ("at".toList, .arr [.obj [("x".toList, .num (.pos 7))]]),
      ("id".toList, .num (.pos 42)),
      ("names".toList, .arr [.str "cat".toList]),
      ("tag".toList, .str "t".toList)])
    ⟨⟨.body, (jsonBody sample).2.rules⟩, .noUnexpectedKeys⟩ ≠ .ok () := by decide

end Verif.PatternProps
