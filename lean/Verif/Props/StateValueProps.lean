import Verif.Props.ApplyGenValueProps

/-
  Property C146: the values a state change handler answers with reach the provider in the generated request.
-/

set_option autoImplicit false

namespace Verif
namespace StateValueProps
open Path Rules Generate PactFile Query Headers ApplyGen ApplyGenProps Provider ProviderProps ProviderMessageProps
open RuleJson (Obj)
open ExprProps (Piece template combined values NoOpen)

theorem each_split {A B : Type} {P : A → B → Prop} {as : List A} {bs : List B} (h : BrokerProps.Each P as bs) {a : A}
    (ha : a ∈ as) : ∃ pre b post, bs = pre ++ b :: post ∧ P a b := by
  induction h with
  | nil => exact absurd ha (List.not_mem_nil)
  | cons h1 _ ih =>
    rename_i x b as bs _
    rcases List.mem_cons.1 ha with rfl | ha
    · exact ⟨[], b, bs, rfl, h1⟩
    · obtain ⟨pre, b', post, rfl, h⟩ := ih ha
      exact ⟨b :: pre, b', post, rfl, h⟩

/-- The generators are those of a library with some random numbers. -/
def Generates {N : Type} (S : Setting N) (G : GLib) (D : Draws) : Prop :=
  ∀ ctx r r', generateRequest S.libs G D .provider ctx r = .ok r' → S.generate ctx r = r'

/-- **C146** (the request): unless there is a panic, the request of an interaction that is verified is sent after the setup of
its states, at most once (exactly once if it was verified), and is the one its generators make from a context with the values
the setup handlers answered with (the last answer winning), else the parameters of the states. -/
theorem C146_request {N : Type} (S : Setting N) (G : GLib) (D : Draws) (hgen : Generates S G D) (hnf : S.opts.filter = none)
    (i : Verifier.Ixn) (l l' : Log N) (evs : List Verifier.Event) (ok ok' : Bool)
    (h : Verifier.verifyInteraction S.world l i = (l', evs, ok)) (hp : l'.panicked = false) (ctx : Obj)
    (he : Verifier.Event.request i ctx ok' ∈ evs) (c : Common) (request r' : HttpRequest) (response : HttpResponse)
    (hfind : S.find i = .http c request response) (hr : generateRequest S.libs G D .provider ctx request = .ok r') :
    (∃ answers, answers.length = (VerifierProps.statesOf i).length ∧ none ∉ answers ∧ VerifierProps.IsContext i answers ctx) ∧
    ∃ before ws later, l'.sent = l.sent ++ (before ++ (ws ++ later)) ∧ ws.length ≤ 1 ∧ (ok' = true → ws.length = 1) ∧
      ∀ w ∈ ws, ∃ v, createRequest S.libs.file S.libs.http
          (baseUrl S.info (findTransport ["http".toList] c.transport S.info.transports)) r' S.opts.custom = .ok v ∧
        w = withDefaults S.defaults v := by
  constructor
  · have hev : Verifier.Event.request i ctx ok' ∈ (Verifier.verifyInteraction S.world l i).2.1 := by rw [h]; exact he
    obtain ⟨_, answers, _, _, h1, h2, h3⟩ := VerifierProps.C64_context S.world l i i ctx ok' hev
    exact ⟨answers, h1, h2, h3⟩
  · obtain ⟨_, wss, hw, hs⟩ := C137_sent S i l l' evs ok h hp
    obtain ⟨pre, ws, post, rfl, hc⟩ := each_split hw he
    refine ⟨pre.flatten, ws, post.flatten, ?_, hc.1, hc.2.1, ?_⟩
    · rw [hs]; simp
    · intro w hwm
      obtain ⟨v, h1, h2⟩ := hc.2.2 c request response hfind w hwm
      rw [hgen _ _ _ hr] at h1
      unfold filtered at h1
      rw [hnf] at h1
      exact ⟨v, h1, h2⟩

/-- **C146** (the path): if the path of a request has a provider state generator whose names all have a value, the path of the
request that reaches the provider is the expression with the names replaced by the values. -/
theorem C146_path {N : Type} (S : Setting N) (G : GLib) (D : Draws) (hgen : Generates S G D) (hnf : S.opts.filter = none)
    (i : Verifier.Ixn) (l l' : Log N) (evs : List Verifier.Event) (ok ok' : Bool)
    (h : Verifier.verifyInteraction S.world l i = (l', evs, ok)) (hp : l'.panicked = false) (ctx : Obj)
    (he : Verifier.Event.request i ctx ok' ∈ evs) (c : Common) (request r' : HttpRequest) (response : HttpResponse)
    (hfind : S.find i = .http c request response) (hr : generateRequest S.libs G D .provider ctx request = .ok r')
    (hctx : ∀ m, RuleJson.get "providerState" ctx ≠ some (.obj m)) (key : DocPath) (p : Str × Str) (ps : List (Str × Str))
    (rest : Str) (hg : buildGens request.rules request.gens .path = [(key, .gen (.providerState (template (p :: ps) rest) none))])
    (hv : ∀ q ∈ p :: ps, Piece (fun n => Json.lookup n ctx) q) (hrest : NoOpen rest) :
    ∃ before ws later, l'.sent = l.sent ++ (before ++ (ws ++ later)) ∧ (ok' = true → ws.length = 1) ∧
      ∀ w ∈ ws, w.url = joinPaths (baseUrl S.info (findTransport ["http".toList] c.transport S.info.transports))
        (combined (values (fun n => Json.lookup n ctx) (p :: ps) rest)).toStr := by
  obtain ⟨_, before, ws, later, h1, _, h2, h3⟩ :=
    C146_request S G D hgen hnf i l l' evs ok ok' h hp ctx he c request r' response hfind hr
  refine ⟨before, ws, later, h1, h2, ?_⟩
  intro w hw
  obtain ⟨v, hv', rfl⟩ := h3 w hw
  have hsv : stateValue ctx = fun n => Json.lookup n ctx := by
    funext n
    rw [C141_context]
    split
    · rename_i m hm; exact absurd hm (hctx m)
    · rfl
  have hpath : r'.path = (combined (values (fun n => Json.lookup n ctx) (p :: ps) rest)).toStr := by
    refine C141_path S.libs G D ctx request r' key _ _ hg ?_ hr
    rw [← hsv]
    exact C141_expression ctx p ps rest (by rw [hsv]; exact hv) hrest
  have := (C131_sent _ _ _ _ _ [] _ hv').2.1
  rw [← hpath]
  exact this

/-! ### Example -/

/-- The request of the example: its path comes from a provider state. -/
def exAsked : HttpRequest :=
  { exRequest with gens := [(.path, [(fromTokens [.root], .providerState "/x/${id}".toList none)])] }

/-- A verifier whose generators are those of the model. -/
def exSetting : Setting Nat :=
  { ProviderMessageProps.exSetting with
    generate := fun ctx r => match generateRequest exLibs ApplyGenBodyProps.exG (fun _ => ApplyGenBodyProps.exRng) .provider ctx r with
      | .ok r' => r'
      | _ => r
    find := fun _ => .http ProviderProps.exCommon exAsked exResponse }

example : Generates exSetting ApplyGenBodyProps.exG (fun _ => ApplyGenBodyProps.exRng) := by
  intro ctx r r' h
  show (match generateRequest exLibs _ _ _ ctx r with | .ok r' => r' | _ => r) = r'
  have h : generateRequest exLibs ApplyGenBodyProps.exG (fun _ => ApplyGenBodyProps.exRng) .provider ctx r = .ok r' := h
  rw [h]

set_option maxRecDepth 100000 in
/-- The parameter of the state arrives in the path. -/
example : (Verifier.verifyInteraction exSetting.world ⟨0, [], false⟩
      ⟨none, "d".toList, [⟨"s".toList, [("id".toList, .num (.pos 42))]⟩], false⟩).1.panicked = false ∧
    (Verifier.verifyInteraction exSetting.world ⟨0, [], false⟩
      ⟨none, "d".toList, [⟨"s".toList, [("id".toList, .num (.pos 42))]⟩], false⟩).1.sent.map (·.url)
      = ["http://s".toList, "http://h:2/base/x/42".toList, "http://s".toList] := ⟨by rfl, by rfl⟩

end StateValueProps
end Verif
