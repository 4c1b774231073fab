import Verif.BodyBuild

/-
  Model of the FFI calls that add to an interaction or a pact directly (rust/pact_ffi/src/mock_server/handles.rs 542-692,
  1101-1312, 1979-2342, 2487-2660): description, provider states, test name, key, pending flag, comments, metadata, bodies
  given as bytes, and matching rules and generators given as JSON.

  The calls work on the interaction (or pact) of their handle and on the flag that tells if a mock server was started for the
  pact; finding the interaction of a handle is modelled in `Verif.Handles`.  Hash maps are association lists.
-/

set_option autoImplicit false

namespace Verif
namespace Ops
open Path Rules RuleJson Generate Integration PactFile Parts Headers

/-- A string of the C interface: a NULL pointer, bytes that are not UTF-8, or a text. -/
inductive CStr where
  | null
  | bad
  | text (s : Str)
deriving DecidableEq, Repr

/-- `convert_cstr` (pact_ffi/src/lib.rs 177-193): NULL and bytes that are not UTF-8 are nothing. -/
def CStr.get : CStr → Option Str
  | .text s => some s
  | _ => none

/-- `enum InteractionPart` (handles.rs 199-204). -/
inductive Part where
  | request
  | response
deriving DecidableEq, Repr

/-- `HashMap::remove`. -/
def removeKV {V : Type} (k : Str) (m : List (Str × V)) : List (Str × V) := m.filter fun e => !decide (e.1 = k)

/-- A change of the shared fields of an interaction. -/
def onCommon (f : Common → Common) : Interaction → Interaction
  | .http c req res => .http (f c) req res
  | .async c m => .async (f c) m
  | .sync c req res => .sync (f c) req res

/-! ### Description and provider states -/

/-- `pactffi_upon_receiving` (handles.rs 546-557): the description is set even if the mock server was started. -/
def uponReceiving (started : Bool) (desc : CStr) (i : Interaction) : Interaction × Bool :=
  match desc.get with
  | some d => (onCommon (fun c => { c with description := d }) i, !started)
  | none => (i, false)

/-- `provider_states_mut().push(..)`. -/
def pushState (s : PState) (i : Interaction) : Interaction :=
  onCommon (fun c => { c with states := c.states ++ [s] }) i

/-- `pactffi_given` (handles.rs 563-572). -/
def given (started : Bool) (desc : CStr) (i : Interaction) : Interaction × Bool :=
  match desc.get with
  | some d => (pushState ⟨d, []⟩ i, !started)
  | none => (i, false)

/-- The value of a text: as JSON, otherwise the text (handles.rs 629-632, 1239-1245, 2584-2588). -/
def jsonOrText (parse : Str → Option Json) (s : Str) : Json := (parse s).getD (.str s)

/-- A parameter for the first state with the name, else for a new state (handles.rs 633-642). -/
def setParam (d k : Str) (v : Json) : List PState → List PState
  | [] => [⟨d, [(k, v)]⟩]
  | s :: ss => if s.name = d then ⟨s.name, insertKV k v s.params⟩ :: ss else s :: setParam d k v ss

/-- `pactffi_given_with_param` (handles.rs 621-651): a value that is missing is the empty text. -/
def givenWithParam (parse : Str → Option Json) (started : Bool) (desc name value : CStr) (i : Interaction) :
    Interaction × Bool :=
  match desc.get, name.get with
  | some d, some k =>
    (onCommon (fun c => { c with states := setParam d k (jsonOrText parse (value.get.getD [])) c.states }) i, !started)
  | _, _ => (i, false)

/-- The parameters of a JSON value (handles.rs 685-690). -/
def paramsOf : Json → Obj
  | .obj m => m
  | v => [("value".toList, v)]

/-- `pactffi_given_with_params` (handles.rs 666-705): 0, 1 if the mock server was started, 2 if the text is not JSON and 3 if a
text is missing. -/
def givenWithParams (parse : Str → Option Json) (started : Bool) (desc params : CStr) (i : Interaction) :
    Interaction × Nat :=
  match desc.get, params.get with
  | some d, some p => match parse p with
    | some v => (pushState ⟨d, paramsOf v⟩ i, if started then 1 else 0)
    | none => (i, 2)
  | _, _ => (i, 3)

/-! ### Test name, key, pending flag and comments -/

/-- A change of the comments. -/
def onComments (f : Obj → Obj) (i : Interaction) : Interaction := onCommon (fun c => { c with comments := f c.comments }) i

/-- `pactffi_interaction_test_name` (handles.rs 590-608): 1 for a text that is missing, 3 if the mock server was started. -/
def testName (started : Bool) (name : CStr) (i : Interaction) : Interaction × Nat :=
  match name.get with
  | some n => if started then (i, 3) else (onComments (insertKV "testname".toList (.str n)) i, 0)
  | none => (i, 1)

/-- `pactffi_set_key` (handles.rs 2487-2518): NULL clears the key. -/
def setKey (value : CStr) (i : Interaction) : Interaction × Bool :=
  match value with
  | .bad => (i, false)
  | v => (onCommon (fun c => { c with key := v.get }) i, true)

/-- `pactffi_set_pending` (handles.rs 2527-2546). -/
def setPending (pending : Bool) (i : Interaction) : Interaction × Bool :=
  (onCommon (fun c => { c with pending := pending }) i, true)

/-- `pactffi_set_comment` (handles.rs 2573-2606): NULL removes the comment. -/
def setComment (parse : Str → Option Json) (key value : CStr) (i : Interaction) : Interaction × Bool :=
  match key.get, value with
  | none, _ => (i, false)
  | some _, .bad => (i, false)
  | some k, .null => (onComments (removeKV k) i, true)
  | some k, .text v => (onComments (insertKV k (jsonOrText parse v)) i, true)

/-- The text comments with one more (handles.rs 2638-2645). -/
def withText (t : Str) : Option Json → Json
  | some (.arr xs) => .arr (xs ++ [.str t])
  | _ => .arr [.str t]

/-- `pactffi_add_text_comment` (handles.rs 2628-2650). -/
def addTextComment (comment : CStr) (i : Interaction) : Interaction × Bool :=
  match comment.get with
  | some t => (onComments (fun m => insertKV "text".toList (withText t (RuleJson.get "text" m)) m) i, true)
  | none => (i, false)

/-! ### Metadata -/

/-- `PROTECTED_NAMES` (handles.rs 1127). -/
def protectedNames : List Str := ["pactRust".toList, "pactSpecification".toList]

/-- The value of a namespace with one more entry (handles.rs 1154-1166). -/
def withEntry (name value : Str) : Option Json → Json
  | some (.obj m) => .obj (OMap.insert name (.str value) m)
  | _ => .obj [(name, .str value)]

/-- `pactffi_with_pact_metadata` (handles.rs 1138-1176). -/
def withPactMetadata (started : Bool) (ns name value : CStr) (p : V4Pact) : V4Pact × Bool :=
  let n := ns.get.getD []
  if n.isEmpty then (p, false)
  else if protectedNames.contains n then (p, false)
  else ({ p with metadata := OMap.insert n (withEntry (name.get.getD []) (value.get.getD []) (Json.lookup n p.metadata)) p.metadata },
    !started)

/-- `DocPath::new(key).unwrap()` (handles.rs 1271-1272 and so on), and the value processed at that path: only objects and
arrays need the path. -/
def metaValue (S : Setup) (uc : UC) (key : Str) (a : Acc) : Json → Res (Json × Acc)
  | .obj m => match Path.new uc key with
    | .ok p => process S p false false false (.obj m) a
    | _ => .panic
  | .arr xs => match Path.new uc key with
    | .ok p => process S p false false false (.arr xs) a
    | _ => .panic
  | j => .ok (j, a)

/-- The metadata of message contents with a value (handles.rs 1267-1276, 1291-1299, 1302-1310). -/
def putMeta (E : Source) (key : Str) (j : Json) (c : MessageContents) : Res MessageContents :=
  (metaValue E.setup E.uc key ⟨catOf c.rules .metadata, c.gens⟩ j).map fun r =>
    { c with metadata := insertKV key r.1 c.metadata, rules := setCat .metadata r.2.cat c.rules, gens := r.2.gens }

/-- The metadata of message contents without a value, or with it. -/
def changeMeta (E : Source) (key : Str) (value : Option Json) (c : MessageContents) : Res MessageContents :=
  match value with
  | none => .ok { c with metadata := removeKV key c.metadata }
  | some j => putMeta E key j c

/-- `pactffi_with_metadata` (handles.rs 1223-1316). -/
def withMetadata (E : Source) (started : Bool) (key value : CStr) (part : Part) (i : Interaction) : Res (Interaction × Bool) :=
  match key.get, value with
  | none, _ => .ok (i, false)
  | some _, .bad => .ok (i, false)
  | some k, v =>
    if started then .ok (i, false) else match i with
    | .http c req res => .ok (.http c req res, false)
    | .async c m => (changeMeta E k (v.get.map (jsonOrText E.parse)) m).map fun m => (.async c m, true)
    | .sync c req res => match part with
      | .request => (changeMeta E k (v.get.map (jsonOrText E.parse)) req).map fun m => (.sync c m res, true)
      | .response => (allOk (res.map (changeMeta E k (v.get.map (jsonOrText E.parse))))).map fun rs => (.sync c req rs, true)

/-! ### Bodies given as bytes -/

/-- `convert_ptr_to_body` (handles.rs 2652-2660); the bytes are those of the pointer, `none` if it is NULL. -/
def ptrBody (b : Option Bytes) (ct : Option ContentType) : FBody :=
  match b with
  | none => .null
  | some [] => .empty
  | some b => .present b ct none

/-- `has_header("Content-Type")` (pact_models/src/http_parts.rs 77-89). -/
def hasType (uc : UC) (h : Option HeaderMap) : Bool :=
  (h.getD []).any fun e => decide (uc.lower e.1 = uc.lower "Content-Type".toList)

/-- The content type header is added if there is none (handles.rs 1994-2003, 2008-2017). -/
def addTypeHeader (uc : UC) (ct : Str) (h : Option HeaderMap) : Option HeaderMap :=
  if hasType uc h then h else some (insertKV "Content-Type".toList [ct] (h.getD []))

/-- The `contentType` of message contents (handles.rs 2022, 2028, 2033). -/
def setMetaType (ct : Str) (m : Obj) : Obj := insertKV "contentType".toList (.str ct) m

/-- `MessageContents::default()`. -/
def noContents : MessageContents := ⟨.missing, [], [], []⟩

/-- Message contents with a body given as bytes (handles.rs 2020-2034). -/
def binaryContents (L : BodyBuild.Lib) (ct : Str) (b : Option Bytes) (c : MessageContents) : MessageContents :=
  { c with contents := ptrBody b (L.file.parseCT ct), metadata := setMetaType ct c.metadata }

/-- `pactffi_with_binary_body` (handles.rs 1979-2042). -/
def withBinaryBody (L : BodyBuild.Lib) (started : Bool) (part : Part) (ct : CStr) (b : Option Bytes) (i : Interaction) :
    Interaction × Bool :=
  let t := ct.get.getD "application/octet-stream".toList
  match i with
  | .http c req res => match part with
    | .request => (.http c { req with body := ptrBody b (L.file.parseCT t), headers := addTypeHeader L.src.uc t req.headers } res,
        !started)
    | .response => (.http c req { res with body := ptrBody b (L.file.parseCT t), headers := addTypeHeader L.src.uc t res.headers },
        !started)
  | .async c m => (.async c (binaryContents L t b m), true)
  | .sync c req res => match part with
    | .request => (.sync c (binaryContents L t b req) res, true)
    | .response => (.sync c req (res ++ [binaryContents L t b noContents]), true)

/-- `add_content_type_matching_rule_to_body` (handles.rs 2337-2342). -/
def typeRule (supported : Bool) (ct : Str) (m : MatchingRules) : MatchingRules :=
  if supported then setCat .body (addRule (catOf m .body) rootPath (.contentType ct) .and) m else m

/-- `specification_version >= V3` (handles.rs 2089-2091), in the order of the enumeration. -/
def atLeastV3 : PactV3.Spec → Bool
  | .v3 | .v4 => true
  | _ => false

/-- Message contents with a file (handles.rs 2132-2155). -/
def fileContents (supported : Bool) (ct : Str) (b : Option Bytes) (c : MessageContents) : MessageContents :=
  { c with contents := ptrBody b none, metadata := setMetaType ct c.metadata, rules := typeRule supported ct c.rules }

/-- `pactffi_with_binary_file` (handles.rs 2082-2166). -/
def withBinaryFile (uc : UC) (spec : PactV3.Spec) (started : Bool) (part : Part) (ct : CStr) (b : Option Bytes)
    (i : Interaction) : Interaction × Bool :=
  match ct.get with
  | none => (i, false)
  | some t => match i with
    | .http c req res => match part with
      | .request => (.http c { req with body := ptrBody b none, headers := addTypeHeader uc t req.headers,
                                        rules := typeRule (atLeastV3 spec) t req.rules } res, !started)
      | .response => (.http c req { res with body := ptrBody b none, headers := addTypeHeader uc t res.headers,
                                             rules := typeRule (atLeastV3 spec) t res.rules }, !started)
    | .async c m => (.async c (fileContents (atLeastV3 spec) t b m), true)
    | .sync c req res => match part with
      | .request => (.sync c (fileContents (atLeastV3 spec) t b req) res, true)
      | .response => (.sync c req (res ++ [fileContents (atLeastV3 spec) t b noContents]), true)

/-! ### Matching rules and generators given as JSON -/

/-- A text with an object, wrapped in an attribute if it does not have it (handles.rs 2196-2218, 2283-2305). -/
def wrapped (parse : Str → Option Json) (attr : String) (text : CStr) : Option Json :=
  match text.get with
  | none => none
  | some s => match parse s with
    | some (.obj m) => some (if (RuleJson.get attr m).isSome then .obj m else obj [(attr, .obj m)])
    | _ => none

/-- A change of the rules and generators of a part: of all responses of a synchronous message (handles.rs 2227-2243). -/
def onRules (f : MatchingRules → MatchingRules) (g : Generators → Generators) (part : Part) : Interaction → Interaction
  | .http c req res => match part with
    | .request => .http c { req with rules := f req.rules, gens := g req.gens } res
    | .response => .http c req { res with rules := f res.rules, gens := g res.gens }
  | .async c m => .async c { m with rules := f m.rules, gens := g m.gens }
  | .sync c req res => match part with
    | .request => .sync c { req with rules := f req.rules, gens := g req.gens } res
    | .response => .sync c req (res.map fun m => { m with rules := f m.rules, gens := g m.gens })

/-- `pactffi_with_matching_rules` (handles.rs 2181-2252).  A panic of the JSON reader is caught by the interface, which then
answers `false`. -/
def withMatchingRules (E : Source) (part : Part) (rules : CStr) (i : Interaction) : Interaction × Bool :=
  match wrapped E.parse "matchingRules" rules with
  | none => (i, false)
  | some v => match matchersFromJson E.setup.rules v none with
    | .ok rs => (onRules (fun m => mrMerge m rs) id part i, true)
    | _ => (i, false)

/-- `add_generators` (generators/mod.rs 641-648). -/
def addGens (g new : Generators) : Generators :=
  new.foldl (fun acc e => e.2.foldl (fun acc x => addGen acc e.1 x.1 x.2) acc) g

/-- `pactffi_with_generators` (handles.rs 2268-2335). -/
def withGenerators (E : Source) (part : Part) (gens : CStr) (i : Interaction) : Interaction × Bool :=
  match wrapped E.parse "generators" gens with
  | none => (i, false)
  | some v => match generatorsFromJson E.setup.rules v with
    | .ok gs => (onRules id (fun g => addGens g gs) part i, true)
    | _ => (i, false)

/-! ### Sequences of calls -/

/-- The calls of this file, with the arguments that do not come from the handle. -/
inductive Call where
  | description (d : CStr)
  | given (d : CStr)
  | givenParam (d name value : CStr)
  | givenParams (d params : CStr)
  | testName (n : CStr)
  | key (k : CStr)
  | pending (p : Bool)
  | comment (k v : CStr)
  | textComment (t : CStr)
  | metadata (k v : CStr) (part : Part)
  | binaryBody (part : Part) (ct : CStr) (b : Option Bytes)
  | binaryFile (part : Part) (ct : CStr) (b : Option Bytes)
  | rules (part : Part) (r : CStr)
  | gens (part : Part) (g : CStr)

/-- The interaction after a call. -/
def step (L : BodyBuild.Lib) (spec : PactV3.Spec) (started : Bool) (c : Call) (i : Interaction) : Res Interaction :=
  match c with
  | .description d => .ok (uponReceiving started d i).1
  | .given d => .ok (given started d i).1
  | .givenParam d n v => .ok (givenWithParam L.src.parse started d n v i).1
  | .givenParams d p => .ok (givenWithParams L.src.parse started d p i).1
  | .testName n => .ok (testName started n i).1
  | .key k => .ok (setKey k i).1
  | .pending p => .ok (setPending p i).1
  | .comment k v => .ok (setComment L.src.parse k v i).1
  | .textComment t => .ok (addTextComment t i).1
  | .metadata k v part => (withMetadata L.src started k v part i).map (·.1)
  | .binaryBody part ct b => .ok (withBinaryBody L started part ct b i).1
  | .binaryFile part ct b => .ok (withBinaryFile L.src.uc spec started part ct b i).1
  | .rules part r => .ok (withMatchingRules L.src part r i).1
  | .gens part g => .ok (withGenerators L.src part g i).1

/-- The interaction after calls; the flag of the pact may change between calls. -/
def run (L : BodyBuild.Lib) (spec : PactV3.Spec) : List (Bool × Call) → Interaction → Res Interaction
  | [], i => .ok i
  | c :: cs, i => (step L spec c.1 c.2 i).bind (run L spec cs)

end Ops
end Verif
