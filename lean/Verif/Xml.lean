import Verif.Compare
import Verif.Maps

/-
  Model of the comparison of XML bodies (pact_matching/src/xml.rs 24-419).

  Simplified: the XML parser (`sxd_document`) is a parameter that gives the root element of a document or fails; its
  elements are trees of names, attributes and children.  CDATA sections are text, comments and processing instructions are
  kept as children without content (the code counts them).  The texts of the mismatches are left out.
-/

set_option autoImplicit false

namespace Verif
namespace Xml
open Path Rules Matchers Compare

/-- `sxd_document::QName`: namespace and local part. -/
structure QName where
  ns : Option Str
  loc : Str
deriving Repr, DecidableEq

/-- `sxd_document::dom::Element`: name, attributes and children; a child is an element, a text (`inr (some _)`) or a
comment or processing instruction (`inr none`). -/
inductive Elem where
  | mk (name : QName) (attrs : List (QName × Str)) (kids : List (Elem ⊕ Option Str))

/-- `Element::name`. -/
def Elem.name : Elem → QName
  | .mk n _ _ => n
/-- `Element::attributes`. -/
def Elem.attrs : Elem → List (QName × Str)
  | .mk _ a _ => a
/-- `Element::children`. -/
def Elem.kids : Elem → List (Elem ⊕ Option Str)
  | .mk _ _ k => k

mutual
/-- The number of nested elements (not in the code: bounds the recursion). -/
def Elem.depth : Elem → Nat
  | .mk _ _ k => kidsDepth k + 1
/-- See `Elem.depth`. -/
def kidsDepth : List (Elem ⊕ Option Str) → Nat
  | [] => 0
  | k :: ks => max (kidDepth k) (kidsDepth ks)
/-- See `Elem.depth`. -/
def kidDepth : Elem ⊕ Option Str → Nat
  | .inl e => e.depth
  | .inr _ => 0
end

/-- `fn name` (xml.rs 84-90). -/
def nameStr (q : QName) : Str :=
  match q.ns with
  | some ns => ns ++ ':' :: q.loc
  | none => q.loc

/-- `impl Matches<&Element> for &Element` (xml.rs 92-150): the names and the number of children of the actual element. -/
def elemMatches (env : Env) (e a : Elem) (rule : MatchingRule) (cascaded : Bool) : Bool :=
  match rule with
  | .regex re => regexMatches env re a.name.loc
  | .type => decide (e.name = a.name)
  | .minType min => !(!cascaded && decide (a.kids.length < min))
  | .maxType max => !(!cascaded && decide (a.kids.length > max))
  | .minMaxType min max =>
    if !cascaded && decide (a.kids.length < min) then false else !(!cascaded && decide (a.kids.length > max))
  | .equality => decide (e.name = a.name)
  | .notEmpty => !a.kids.isEmpty
  | _ => false

/-- `CoreMatchingContext::type_matcher_defined` (lib.rs 555-559; matchingrules/mod.rs 712-720, 1045-1047). -/
def typeDefined (ctx : Ctx) (p : DocPath) : Bool :=
  (resolveMatchersForPath ctx.cat (toVec p)).rules.any fun e => e.2.rules.any MatchingRule.isTypeMatcher

/-- A mismatch for each message (xml.rs 168-176, 377-386, 402-412). -/
def report (p : DocPath) (k : MKind) : Except (List (Option MatchingRule)) Unit → List Mismatch
  | .ok _ => []
  | .error fs => fs.map fun _ => ⟨p, k⟩

/-- The selected rules, or equality (xml.rs 160-166, 367-373, 395-400). -/
def check (ctx : Ctx) (p : DocPath) (verdict : MatchingRule → Bool → Bool) : Except (List (Option MatchingRule)) Unit :=
  if isDefined ctx p then matchValues verdict (best ctx p)
  else if verdict .equality false then .ok () else .error [none]

/-- `fn compare_value` (xml.rs 388-413). -/
def compareValue (env : Env) (ctx : Ctx) (p : DocPath) (e a : Str) : List Mismatch :=
  report p .text (check ctx p (strMatches env e a))

/-- The attributes as a `BTreeMap` (xml.rs 190-193). -/
def attrMap (e : Elem) : List (Str × Str) := OMap.collect (e.attrs.map fun x => (nameStr x.1, x.2))

/-- An expected attribute (xml.rs 219-233). -/
def compareAttr (env : Env) (ctx : Ctx) (p : DocPath) (am : List (Str × Str)) (kv : Str × Str) : List Mismatch :=
  match Json.lookup kv.1 am with
  | some v => compareValue env ctx (join p ('@' :: kv.1)) kv.2 v
  | none => [⟨join p ('@' :: kv.1), .attribute⟩]

/-- The number of attributes (xml.rs 201-216). -/
def attrCount (ctx : Ctx) (p : DocPath) (em am : List (Str × Str)) : List Mismatch :=
  match ctx.config with
  | .allowUnexpectedKeys => if em.length > am.length then [⟨p, .attributes⟩] else []
  | .noUnexpectedKeys => if em.length ≠ am.length then [⟨p, .attributes⟩] else []

/-- `fn compare_attributes` (xml.rs 183-236). -/
def compareAttrs (env : Env) (ctx : Ctx) (p : DocPath) (e a : Elem) : List Mismatch :=
  if (attrMap e).isEmpty && !(attrMap a).isEmpty && decide (ctx.config = .noUnexpectedKeys) then [⟨p, .attributes⟩]
  else attrCount ctx p (attrMap e) (attrMap a) ++ (attrMap e).flatMap (compareAttr env ctx p (attrMap a))

/-- `fn children` (xml.rs 238-243). -/
def elems (e : Elem) : List Elem := e.kids.filterMap fun | .inl c => some c | .inr _ => none

/-- The children by name (xml.rs 271-286). -/
def groups (cs : List Elem) : List (Str × List Elem) :=
  cs.foldl (fun m c => OMap.insert (nameStr c.name) ((Json.lookup (nameStr c.name) m).getD [] ++ [c]) m) []

/-- A comparison of two elements at a path. -/
abbrev Cmp := DocPath → Elem → Elem → List Mismatch

/-- `zip_longest` of the expected and actual children of one name (xml.rs 297-324). -/
def pairs (cmp : Cmp) (ctx : Ctx) (q : DocPath) : List Elem → List Elem → List Mismatch
  | [], as => as.flatMap fun _ => if ctx.config = .noUnexpectedKeys then [⟨q, .unexpectedChild⟩] else []
  | _ :: es, [] => ⟨q, .missingChild⟩ :: pairs cmp ctx q es []
  | e :: es, a :: as => cmp q e a ++ pairs cmp ctx q es as

/-- With a type rule every actual child is compared with the first expected one (xml.rs 291-296). -/
def eachWithFirst (cmp : Cmp) (q : DocPath) (es as : List Elem) : List Mismatch :=
  match es with
  | [] => []
  | e :: _ => as.flatMap (cmp q e)

/-- The actual children of one name (xml.rs 287-334). -/
def compareGroup (cmp : Cmp) (ctx : Ctx) (p : DocPath) (eg : List (Str × List Elem)) (g : Str × List Elem) :
    List Mismatch :=
  match Json.lookup g.1 eg with
  | some es => if typeDefined ctx (join p g.1) then eachWithFirst cmp (join p g.1) es g.2
      else pairs cmp ctx (join p g.1) es g.2
  | none => if decide (ctx.config = .noUnexpectedKeys) || typeDefined ctx (join p g.1) then [⟨p, .unexpectedChild⟩] else []

/-- `fn compare_children` (xml.rs 249-350). -/
def compareKids (cmp : Cmp) (ctx : Ctx) (p : DocPath) (e a : Elem) : List Mismatch :=
  if (elems e).isEmpty && !(elems a).isEmpty && decide (ctx.config = .noUnexpectedKeys) then [⟨p, .children⟩]
  else (groups (elems a)).flatMap (compareGroup cmp ctx p (groups (elems e))) ++
    ((groups (elems e)).filter fun g => (Json.lookup g.1 (groups (elems a))).isNone).map fun _ => ⟨p, .missingChild⟩

/-- The trimmed texts of an element (xml.rs 359-366). -/
def textOf (uc : UC) (e : Elem) : Str :=
  e.kids.flatMap fun | .inr (some t) => trim uc t | _ => []

/-- `fn compare_text` (xml.rs 352-386). -/
def compareText (env : Env) (uc : UC) (ctx : Ctx) (p : DocPath) (e a : Elem) : List Mismatch :=
  report (join p "#text".toList) .text
    (if isDefined ctx (join p "#text".toList) then
      check ctx (join p "#text".toList) (strMatches env (trim uc (textOf uc e)) (trim uc (textOf uc a)))
    else check ctx (join p "#text".toList) (strMatches env (textOf uc e) (trim uc (textOf uc a))))

/-- `fn compare_element` (xml.rs 152-181), over the comparison of the children. -/
def compareStep (env : Env) (uc : UC) (ctx : Ctx) (cmp : Cmp) : Cmp := fun p e a =>
  match check ctx p (elemMatches env e a) with
  | .error fs => report p .element (.error fs)
  | .ok _ => compareAttrs env ctx p e a ++ compareKids cmp ctx p e a ++ compareText env uc ctx p e a

/-- `compare_element`, to a depth. -/
def compareF (env : Env) (uc : UC) (ctx : Ctx) : Nat → Cmp
  | 0 => fun _ _ _ => []
  | n + 1 => compareStep env uc ctx (compareF env uc ctx n)

/-- `fn compare_element` (xml.rs 152-181): the recursion goes down the expected element. -/
def compareElem (env : Env) (uc : UC) (ctx : Ctx) : Cmp := fun p e a => compareF env uc ctx e.depth p e a

/-- The comparison of parsed documents (xml.rs 54-63). -/
def compareRoot (env : Env) (uc : UC) (ctx : Ctx) (e a : Elem) : List Mismatch :=
  compareElem env uc ctx (join rootPath (nameStr e.name)) e a

/-- The bodies, both present (xml.rs 34-64); `parse` is `parse_bytes` and the search for the root element. -/
def matchXml {B : Type} (parse : B → Option Elem) (env : Env) (uc : UC) (ctx : Ctx) (e a : B) : List Mismatch :=
  match parse e, parse a with
  | some x, some y => compareRoot env uc ctx x y
  | some _, none => [⟨rootPath, .unparsable⟩]
  | none, some _ => [⟨rootPath, .unparsable⟩]
  | none, none => [⟨rootPath, .unparsable⟩, ⟨rootPath, .unparsable⟩]

end Xml
end Verif
