import Verif.EnginePlan

/-
  Lemmas about executing plans with the V2 matching engine: a node `Runs` to another node when `walk_tree`
  returns it for every bound on the recursion that is at least its height, leaving the value stack as it was, and an
  executed node is `Done` with a verdict when its errors and its result say the same as the verdict.
-/
set_option autoImplicit false

namespace Verif
namespace EngineWalk
open Path Rules Matchers Compare Query Headers MatchResult Engine

/-- Executing the node gives the other node and leaves the value stack. -/
def Runs (C : ECtx) (s : Stack) (n n' : Node) : Prop := ∀ f, height n ≤ f → walkF C f n s = .ok n' s

/-- Executing the nodes one after the other. -/
inductive RunsL (C : ECtx) (s : Stack) : List Node → List Node → Prop
  | nil : RunsL C s [] []
  | cons {n n' : Node} {ns ns' : List Node} : Runs C s n n' → RunsL C s ns ns' → RunsL C s (n :: ns) (n' :: ns')

theorem height_pos (n : Node) : 1 ≤ height n := by
  cases n with
  | mk k r cs => rw [height]; omega

theorem height_mk (k : NodeKind) (r : Option NodeResult) (cs : List Node) : height (.mk k r cs) = heights cs + 1 := by
  rw [height]

theorem heights_cons (n : Node) (ns : List Node) : heights (n :: ns) = max (height n) (heights ns) := by rw [heights]

theorem heights_nil : heights [] = 0 := by rw [heights]

theorem runsL_append {C : ECtx} {s : Stack} {a a' b b' : List Node} (h : RunsL C s a a') (g : RunsL C s b b') :
    RunsL C s (a ++ b) (a' ++ b') := by
  induction h with
  | nil => exact g
  | cons h1 _ ih => exact .cons h1 ih

/-- Enough to look at one more than a bound of the heights of the children. -/
theorem runs_of_step {C : ECtx} {s : Stack} {k : NodeKind} {r : Option NodeResult} {cs : List Node} {n' : Node}
    (h : ∀ f, heights cs ≤ f → step C (walkF C f) f (.mk k r cs) s = .ok n' s) : Runs C s (.mk k r cs) n' := by
  intro f hf
  rw [height_mk] at hf
  cases f with
  | zero => omega
  | succ f => rw [walkF]; exact h f (by omega)

theorem expandAll_runs {C : ECtx} {s : Stack} {cs cs' : List Node} (h : RunsL C s cs cs')
    (hs : ∀ c ∈ cs', c.isSplat = false) (f k : Nat) (hf : heights cs ≤ f) (hk : heights cs ≤ k) :
    expandAll (expand (walkF C f) (fun _ t => t) k) cs s = .ok cs' s := by
  induction h with
  | nil => rfl
  | @cons n n' ns ns' h1 _ ih =>
    rw [heights_cons] at hf hk
    have hp := height_pos n
    cases k with
    | zero => omega
    | succ k =>
      have hx : expand (walkF C f) (fun _ t => t) (k + 1) n s = .ok [n'] s := by
        rw [expand, h1 f (by omega)]
        simp [hs n' (List.mem_cons_self ..)]
      rw [expandAll, hx, ]
      simp only []
      rw [ih (fun c hc => hs c (List.mem_cons_of_mem _ hc)) (by omega) (by omega)]
      rfl

theorem runs_container {C : ECtx} {s : Stack} (l : Str) {cs cs' : List Node} (h : RunsL C s cs cs')
    (hs : ∀ c ∈ cs', c.isSplat = false) :
    Runs C s (cont l cs) (.mk (.container l) (some (status cs').truthy) cs') := by
  apply runs_of_step
  intro f hf
  show (match expandAll (expand (walkF C f) (fun _ t => t) f) cs s with
    | .ok cs1 s1 => finish (.mk (.container l) none cs) (status cs1).truthy cs1 s1
    | .err m s1 => .err m s1
    | .panic => .panic) = _
  rw [expandAll_runs h hs f f hf hf]
  rfl

theorem runs_ann {C : ECtx} {s : Stack} : Runs C s ann ann := by
  apply runs_of_step
  intro f _
  rfl

theorem runs_val {C : ECtx} {s : Stack} {v w : NodeValue} (h : nodeValue C.P v = some w) :
    Runs C s (val v) (.mk (.value v) (some (.value w)) []) := by
  apply runs_of_step
  intro f _
  show (match nodeValue C.P v with
    | some w => finish (.mk (.value v) none []) (.value w) [] s
    | none => .err .said s) = _
  rw [h]
  rfl

theorem runs_rsv {C : ECtx} {s : Stack} {p : DocPath} {v : NodeValue} (h : C.resolve p = .ok v) :
    Runs C s (rsv p) (.mk (.resolve p) (some (.value v)) []) := by
  apply runs_of_step
  intro f _
  show (match C.resolve p with
    | .ok v => finish (.mk (.resolve p) none []) (.value v) [] s
    | .err => finish (.mk (.resolve p) none []) (.error .said) [] s
    | .panic => .panic) = _
  rw [h]
  rfl

/-- The result of resolving a path against the top of the stack. -/
def curResult (p : DocPath) (s : Stack) : NodeResult :=
  match resolveStack p s with
  | .ok v => .value v
  | .error m => .error m

theorem runs_cur {C : ECtx} {s : Stack} (p : DocPath) :
    Runs C s (cur p) (.mk (.resolveCurrent p) (some (curResult p s)) []) := by
  apply runs_of_step
  intro f _
  show (match resolveStack p s with
    | .ok v => finish (.mk (.resolveCurrent p) none []) (.value v) [] s
    | .error m => finish (.mk (.resolveCurrent p) none []) (.error m) [] s) = _
  rw [curResult]
  cases resolveStack p s <;> rfl

/-! ### Actions with arguments -/

theorem runs_args1 {C : ECtx} {s : Stack} {a : Action} {c c' n' : Node} {k : Node → Stack → Out Node}
    (hc : Runs C s c c')
    (ha : ∀ rec f, execAction C rec f (act a [c]) s a = args1 rec (act a [c]) s k)
    (hk : k c' s = .ok n' s) : Runs C s (act a [c]) n' := by
  apply runs_of_step
  intro f hf
  rw [heights_cons, heights_nil] at hf
  show execAction C (walkF C f) f (act a [c]) s a = _
  rw [ha]
  show arg (walkF C f) (act a [c]) c s k = _
  rw [arg, hc f (by omega)]
  exact hk

theorem runs_args2 {C : ECtx} {s : Stack} {a : Action} {c c' d d' n' : Node} {k : Node → Node → Stack → Out Node}
    (hc : Runs C s c c') (hd : Runs C s d d')
    (ha : ∀ rec f, execAction C rec f (act a [c, d]) s a = args2 rec (act a [c, d]) s k)
    (hk : k c' d' s = .ok n' s) : Runs C s (act a [c, d]) n' := by
  apply runs_of_step
  intro f hf
  simp only [heights_cons, heights_nil] at hf
  show execAction C (walkF C f) f (act a [c, d]) s a = _
  rw [ha]
  show arg (walkF C f) (act a [c, d]) c s (fun v s1 => arg (walkF C f) (act a [c, d]) d s1 fun w s2 => k v w s2) = _
  rw [arg, hc f (by omega)]
  show arg (walkF C f) (act a [c, d]) d s (fun w s2 => k c' w s2) = _
  rw [arg, hd f (by omega)]
  exact hk

theorem runs_args3 {C : ECtx} {s : Stack} {a : Action} {c c' d d' e e' n' : Node}
    {k : Node → Node → Node → Stack → Out Node}
    (hc : Runs C s c c') (hd : Runs C s d d') (he : Runs C s e e')
    (ha : ∀ rec f, execAction C rec f (act a [c, d, e]) s a = args3 rec (act a [c, d, e]) s k)
    (hk : k c' d' e' s = .ok n' s) : Runs C s (act a [c, d, e]) n' := by
  apply runs_of_step
  intro f hf
  simp only [heights_cons, heights_nil] at hf
  show execAction C (walkF C f) f (act a [c, d, e]) s a = _
  rw [ha]
  show arg (walkF C f) (act a [c, d, e]) c s (fun v s1 => arg (walkF C f) (act a [c, d, e]) d s1 fun w s2 =>
    arg (walkF C f) (act a [c, d, e]) e s2 fun x s3 => k v w x s3) = _
  rw [arg, hc f (by omega)]
  show arg (walkF C f) (act a [c, d, e]) d s (fun w s2 =>
    arg (walkF C f) (act a [c, d, e]) e s2 fun x s3 => k c' w x s3) = _
  rw [arg, hd f (by omega)]
  show arg (walkF C f) (act a [c, d, e]) e s (fun x s3 => k c' d' x s3) = _
  rw [arg, he f (by omega)]
  exact hk

theorem runs_if_false {C : ECtx} {s : Stack} {c c' d : Node} (hc : Runs C s c c') (h : c'.res.isTruthy = false) :
    Runs C s (act .iff [c, d]) (.mk (.action .iff) (some (.value (.bool false))) [c', d]) := by
  apply runs_of_step
  intro f hf
  simp only [heights_cons, heights_nil] at hf
  show execIf (walkF C f) (act .iff [c, d]) s = _
  simp only [execIf, act, Node.new, Node.children]
  rw [hc f (by omega)]
  simp only [h]
  rfl

theorem runs_if_true {C : ECtx} {s : Stack} {c c' d d' : Node} {ds : List Node} (hc : Runs C s c c')
    (h : c'.res.isTruthy = true) (hd : Runs C s d d') :
    Runs C s (act .iff (c :: d :: ds)) (.mk (.action .iff) (some d'.res.truthy) (c' :: d' :: ds)) := by
  apply runs_of_step
  intro f hf
  simp only [heights_cons] at hf
  show execIf (walkF C f) (act .iff (c :: d :: ds)) s = _
  simp only [execIf, act, Node.new, Node.children]
  rw [hc f (by omega)]
  simp only [h, if_true]
  rw [hd f (by omega)]
  rfl

theorem runs_if_else {C : ECtx} {s : Stack} {c c' d e e' : Node} {es : List Node} (hc : Runs C s c c')
    (h : c'.res.isTruthy = false) (he : Runs C s e e') :
    Runs C s (act .iff (c :: d :: e :: es)) (.mk (.action .iff) e'.result (c' :: d :: e' :: es)) := by
  apply runs_of_step
  intro f hf
  simp only [heights_cons] at hf
  show execIf (walkF C f) (act .iff (c :: d :: e :: es)) s = _
  simp only [execIf, act, Node.new, Node.children]
  rw [hc f (by omega)]
  simp only [h]
  rw [he f (by omega)]
  rfl

theorem runs_if_one {C : ECtx} {s : Stack} {c c' : Node} (hc : Runs C s c c') (h : c'.res.isTruthy = true) :
    Runs C s (act .iff [c]) (.mk (.action .iff) (some c'.res) [c']) := by
  apply runs_of_step
  intro f hf
  simp only [heights_cons, heights_nil] at hf
  show execIf (walkF C f) (act .iff [c]) s = _
  simp only [execIf, act, Node.new, Node.children]
  rw [hc f (by omega)]
  simp only [h]
  rfl

/-! ### Loops that combine results -/

/-- The results of the nodes put together. -/
def combined (r : NodeResult) (cs : List Node) : NodeResult := cs.foldl (fun (r : NodeResult) c => r.and c.result) r

theorem teeLoop_runs {C : ECtx} {s : Stack} {cs cs' : List Node} (h : RunsL C s cs cs') :
    ∀ (f : Nat) (r : NodeResult), heights cs ≤ f → teeLoop (walkF C f) cs r s = .ok (combined r cs', cs') s := by
  induction h with
  | nil => intro f r _; rfl
  | @cons n n' ns ns' h1 _ ih =>
    intro f r hf
    rw [heights_cons] at hf
    rw [teeLoop, h1 f (by omega)]
    simp only []
    rw [ih f _ (by omega)]
    rfl

theorem runs_tee {C : ECtx} {s : Stack} {c c' : Node} {cs cs' : List Node} (hc : Runs C s c c')
    (he : c'.res.isErr = false) (h : RunsL C (c'.result :: s) cs cs') :
    Runs C s (act .tee (c :: cs)) (.mk (.action .tee) (some (combined .ok cs').truthy) (c' :: cs')) := by
  apply runs_of_step
  intro f hf
  rw [heights_cons] at hf
  show execTee (walkF C f) (act .tee (c :: cs)) s = _
  show arg (walkF C f) (act .tee (c :: cs)) c s (fun first s1 => if first.res.isErr then
    finish (act .tee (c :: cs)) first.res (first :: cs) s1 else
      match teeLoop (walkF C f) cs .ok (first.result :: s1) with
      | .ok (r, ds) s2 => finish (act .tee (c :: cs)) r.truthy (first :: ds) s2.tail
      | .err m s2 => .err m s2
      | .panic => .panic) = _
  rw [arg, hc f (by omega)]
  simp only [he]
  rw [teeLoop_runs h f .ok (by omega)]
  rfl

theorem runs_tee_err {C : ECtx} {s : Stack} {c c' : Node} {cs : List Node} (hc : Runs C s c c')
    (he : c'.res.isErr = true) : Runs C s (act .tee (c :: cs)) (.mk (.action .tee) (some c'.res) (c' :: cs)) := by
  apply runs_of_step
  intro f hf
  rw [heights_cons] at hf
  show execTee (walkF C f) (act .tee (c :: cs)) s = _
  show arg (walkF C f) (act .tee (c :: cs)) c s (fun first s1 => if first.res.isErr then
    finish (act .tee (c :: cs)) first.res (first :: cs) s1 else _) = _
  rw [arg, hc f (by omega)]
  simp only [he]
  rfl

theorem runs_forEach {C : ECtx} {s : Stack} {c c' : Node} {cs body body' : List Node} (hc : Runs C s c c')
    (he : c'.res.isErr = false)
    (hu : unroll C.P.uc cs 0 (c'.res.asValue.getD .null).listLen = .ok body)
    (hh : heights body ≤ heights cs)
    (h : RunsL C s body body') :
    Runs C s (act .forEach (c :: cs)) (.mk (.action .forEach) (some (combined .ok body').truthy) (c' :: body')) := by
  apply runs_of_step
  intro f hf
  rw [heights_cons] at hf
  show execForEach C (walkF C f) (act .forEach (c :: cs)) s = _
  show arg (walkF C f) (act .forEach (c :: cs)) c s (fun first s1 => if first.res.isErr then
    finish (act .forEach (c :: cs)) first.res (first :: cs) s1 else
      match unroll C.P.uc cs 0 (first.res.asValue.getD .null).listLen with
      | .ok body => match teeLoop (walkF C f) body .ok s1 with
        | .ok (r, ds) s2 => finish (act .forEach (c :: cs)) r.truthy (first :: ds) s2
        | .err m s2 => .err m s2
        | .panic => .panic
      | _ => .panic) = _
  rw [arg, hc f (by omega)]
  simp only [he]
  rw [hu]
  simp only []
  rw [teeLoop_runs h f .ok (by omega)]
  rfl

/-- What an executed node adds to the values. -/
def evalDone (n : Node) (s : Stack) : EOut := evalResult [n] s n.res

theorem evalAll_runs {C : ECtx} {s : Stack} {cs cs' : List Node} (h : RunsL C s cs cs')
    (hr : ∀ c ∈ cs, c.result = none) (hs : ∀ c ∈ cs', c.isSplat = false) :
    ∀ (f k : Nat), heights cs ≤ f → heights cs ≤ k →
    evalAll (evalItem (walkF C f) k) cs s = evalAll evalDone cs' s := by
  induction h with
  | nil => intro f k _ _; rfl
  | @cons n n' ns ns' h1 _ ih =>
    intro f k hf hk
    rw [heights_cons] at hf hk
    have hp := height_pos n
    have hx : evalItem (walkF C f) k n s = evalResult [n'] s n'.res := by
      cases k with
      | zero => omega
      | succ k =>
        rw [evalItem, hr n (List.mem_cons_self ..)]
        simp only []
        rw [h1 f (by omega)]
        simp [hs n' (List.mem_cons_self ..)]
    have ih' := ih (fun c hc => hr c (List.mem_cons_of_mem _ hc)) (fun c hc => hs c (List.mem_cons_of_mem _ hc)) f k
      (by omega) (by omega)
    rw [evalAll, evalAll, hx, evalDone]
    cases hres : n'.res with
    | ok => simp only [evalResult]; rw [ih']
    | value v => simp only [evalResult]; rw [ih']
    | error m => simp only [evalResult]

/-- All the children have values. -/
theorem evalAll_values (s : Stack) : ∀ (cs : List Node) (vs : List NodeValue),
    cs.map Node.res = vs.map NodeResult.value →
    evalAll evalDone cs s = .ok cs vs s
  | [], [], _ => rfl
  | [], _ :: _, h => by cases h
  | _ :: _, [], h => by cases h
  | c :: cs, v :: vs, h => by
    simp only [List.map_cons, List.cons.injEq] at h
    have hd : evalDone c s = .ok [c] [v] s := by rw [evalDone, h.1]; rfl
    rw [evalAll, hd]
    simp only []
    rw [evalAll_values s cs vs h.2]
    rfl

theorem runs_values {C : ECtx} {s : Stack} {a : Action} {cs cs' : List Node} {vs : List NodeValue}
    {F : List NodeValue → NodeResult} (h : RunsL C s cs cs') (hr : ∀ c ∈ cs, c.result = none)
    (hs : ∀ c ∈ cs', c.isSplat = false) (hv : cs'.map Node.res = vs.map NodeResult.value)
    (ha : ∀ rec f, execAction C rec f (act a cs) s a = overValues rec f (act a cs) s F) :
    Runs C s (act a cs) (.mk (.action a) (some (F vs)) cs') := by
  apply runs_of_step
  intro f hf
  show execAction C (walkF C f) f (act a cs) s a = _
  rw [ha, overValues]
  show (match evalAll (evalItem (walkF C f) f) cs s with
    | .ok cs vs s1 => finish (act a cs) (F vs) cs s1
    | .fail m cs s1 => finish (act a cs) (.error m) cs s1
    | .panic => .panic) = _
  rw [evalAll_runs h hr hs f f hf hf, evalAll_values s cs' vs hv]
  rfl

end EngineWalk
end Verif
