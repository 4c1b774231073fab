import Verif.Integration
import Verif.Xml
import Verif.QueryStrings

/-
  Model of the builder of XML bodies of the C interface (rust/pact_ffi/src/mock_server/xml.rs 23-274,
  handles.rs 1092-1102): a JSON description with embedded matching rules and generators becomes a document, rules and
  generators.

  Simplified: the DOM of `sxd_document` is replaced by trees.  A text node has one parent, and `append_child` of a text that
  is already in the tree either moves it or not: `moves` says which, so that the theorems hold for both.  A name given as
  a string is a name without namespace whose local part is the whole string.  Writing the tree as text is left out, as
  is parsing the text of the description.
-/

set_option autoImplicit false

namespace Verif
namespace XmlBuild
open Path Rules RuleJson Generate Integration Xml

/-- A child of an element. -/
abbrev Kid := Elem ⊕ Option Str

/-- `Either<Element, Text>`, what is made from one description (xml.rs 66). -/
inductive Made where
  | elem (e : Elem)
  | text (s : Str)

/-- `path.join(".")`. -/
def dotted (path : List Str) : Str := QS.joinWith ['.'] path

/-- `DocPath::new(..).unwrap_or(DocPath::root())` (xml.rs 76, 135, 231). -/
def docPath (uc : UC) (s : Str) : Res DocPath :=
  match Path.new uc s with
  | .ok p => .ok p
  | .err => .ok rootPath
  | .panic => .panic

/-- `add_generator_with_subcategory(&GeneratorCategory::BODY, ..)` for an optional generator. -/
def addBodyGen (p : DocPath) (g : Option Generator) (a : Acc) : Acc :=
  match g with
  | some g => { a with gens := addGen a.gens .body p g }
  | none => a

/-- The rules and the generator of a matcher; what cannot be read is ignored (xml.rs 78-86, 138-146, 232-240). -/
def addMatcher (S : Setup) (p : DocPath) (m : Obj) (a : Acc) : Res Acc :=
  match matchersFrom S m with
  | .ok (rules, g) => .ok (addBodyGen p g (addRulesAt p rules a))
  | .err => .ok a
  | .panic => .panic

/-- The rules and generators of a matcher at a path expression (xml.rs 76-93, 231-247): the matcher, then its
`pact:generator:type`. -/
def addAt (S : Setup) (path : Str) (m : Obj) (a : Acc) : Res Acc :=
  (docPath S.rules.uc path).bind fun p => (addMatcher S p m a).map fun a => addBodyGen p (ownGenerator m) a

/-- The generator of a text: its type is looked up beside the matcher, its attributes in the matcher (xml.rs 148-155). -/
def textGenerator (o m : Obj) : Option Generator :=
  (RuleJson.get "pact:generator:type" o).bind fun t => genFromMap t.toStr m

/-- The rules and generators of a text (xml.rs 132-156).  `DocPath::new` comes first (135). -/
def addText (S : Setup) (path : List Str) (o : Obj) (a : Acc) : Res Acc :=
  match RuleJson.get "matcher" o with
  | none => .ok a
  | some (.obj m) => (docPath S.rules.uc (dotted (path ++ ["#text".toList]))).bind fun p =>
      (addMatcher S p m a).map fun a => addBodyGen p (textGenerator o m) a
  | some _ => (docPath S.rules.uc (dotted (path ++ ["#text".toList]))).map fun _ => a

/-- The path expression of an attribute (xml.rs 227). -/
def attrPath (path : List Str) (k : Str) : Str := dotted path ++ "['@".toList ++ k ++ "']".toList

/-- One attribute (xml.rs 229-257). -/
def attrValue (S : Setup) (path : List Str) (k : Str) (v : Json) (a : Acc) : Res (Str × Acc) :=
  match v with
  | .obj m => if (RuleJson.get "pact:matcher:type" m).isSome then
      (addAt S (attrPath path k) m a).bind fun a => match RuleJson.get "value" m with
        | some x => .ok (x.toStr, a)
        | none => .panic
    else .ok (v.toStr, a)
  | _ => .ok (v.toStr, a)

/-- `add_attributes` (xml.rs 218-259). -/
def addAttributes (S : Setup) (path : List Str) : Obj → Acc → Res (List (QName × Str) × Acc)
  | [], a => .ok ([], a)
  | e :: es, a => (attrValue S path e.1 e.2 a).bind fun r =>
      (addAttributes S path es r.2).map fun rs => ((⟨none, e.1⟩, r.1) :: rs.1, rs.2)

/-- The attributes of a description, if they are an object (xml.rs 96-105, 160-169). -/
def attributesOf (S : Setup) (path : List Str) (o : Obj) (a : Acc) : Res (List (QName × Str) × Acc) :=
  match RuleJson.get "attributes" o with
  | some (.obj as) => addAttributes S path as a
  | _ => .ok ([], a)

/-- The number of copies (xml.rs 192-198): `as_u64().unwrap()` for a number. -/
def examples (o : Obj) : Res Nat :=
  match RuleJson.get "examples" o with
  | some (.num (.pos n)) => .ok n
  | some (.num _) => .panic
  | _ => .ok 1

mutual
/-- What is left of an element whose texts have been moved elsewhere (`duplicate_element`, xml.rs 261-274). -/
def strip : Elem → Elem
  | .mk n as ks => .mk n as (stripKids ks)
/-- See `strip`. -/
def stripKids : List Kid → List Kid
  | [] => []
  | .inl e :: ks => .inl (strip e) :: stripKids ks
  | .inr _ :: ks => stripKids ks
end

/-- The copies that are appended to the parent (xml.rs 200-203 with `duplicate_element` 261-274): the first one takes the
texts, if the library moves them. -/
def copies (moves : Bool) (e : Elem) : Nat → List Elem
  | 0 => []
  | n + 1 => e :: List.replicate n (if moves then strip e else e)

/-- What is appended to the parent (xml.rs 191-207). -/
def placed (moves : Bool) (o : Obj) (m : Made) : Res (List Kid) :=
  (examples o).map fun n => match m with
    | .elem e => (copies moves e n).map .inl
    | .text s => [.inr (some s)]

/-- See `placed`; the descriptions of children are objects here. -/
def placedIn (moves : Bool) (j : Json) (m : Made) : Res (List Kid) :=
  match j with
  | .obj o => placed moves o m
  | _ => .panic

/-- An element with its name, attributes and then children (xml.rs 95-123, 158-186). -/
def assemble (S : Setup) (path : List Str) (name : Str) (o : Obj) (a : Acc) (kids : Acc → Res (List Kid × Acc)) :
    Res (Made × Acc) :=
  (attributesOf S (path ++ [name]) o a).bind fun r =>
    (kids r.2).map fun k => (.elem (.mk ⟨none, name⟩ r.1 k.1), k.2)

mutual
/-- `create_element_from_json` up to appending it to the parent (xml.rs 57-189, 209-216).  `path` are the names above. -/
def node (S : Setup) (moves : Bool) (path : List Str) : Json → Acc → Res (Made × Acc)
  | .obj o, a =>
    if (RuleJson.get "pact:matcher:type" o).isSome then valueIn S moves path o o a
    else match RuleJson.get "content" o with
      | some c => (addText S path o a).map fun a => (.text c.toStr, a)
      | none => match RuleJson.get "name" o with
        | some n => assemble S path n.toStr o a fun a => kidsIn S moves (path ++ [n.toStr]) o a
        | none => .panic
  | _, _ => .panic
/-- `object.get("value")` (xml.rs 72, 127-129). -/
def valueIn (S : Setup) (moves : Bool) (path : List Str) (m : Obj) : Obj → Acc → Res (Made × Acc)
  | [], _ => .panic
  | e :: es, a => if e.1 = "value".toList then valueOf S moves path m e a else valueIn S moves path m es a
/-- See `valueIn`. -/
def valueOf (S : Setup) (moves : Bool) (path : List Str) (m : Obj) : Str × Json → Acc → Res (Made × Acc)
  | (_, v), a => matched S moves path m v a
/-- The element of a matcher (xml.rs 73-126). -/
def matched (S : Setup) (moves : Bool) (path : List Str) (m : Obj) : Json → Acc → Res (Made × Acc)
  | .obj o, a => match RuleJson.get "name" o with
    | some n => (addAt S (dotted (path ++ [n.toStr])) m a).bind fun a =>
        assemble S path n.toStr o a fun a => kidsIn S moves (path ++ [n.toStr]) o a
    | none => .panic
  | _, _ => .panic
/-- `get("children")` (xml.rs 107-121, 171-185). -/
def kidsIn (S : Setup) (moves : Bool) (path : List Str) : Obj → Acc → Res (List Kid × Acc)
  | [], a => .ok ([], a)
  | e :: es, a => if e.1 = "children".toList then kidsOf S moves path e a else kidsIn S moves path es a
/-- See `kidsIn`. -/
def kidsOf (S : Setup) (moves : Bool) (path : List Str) : Str × Json → Acc → Res (List Kid × Acc)
  | (_, v), a => kidsJ S moves path v a
/-- See `kidsIn`. -/
def kidsJ (S : Setup) (moves : Bool) (path : List Str) : Json → Acc → Res (List Kid × Acc)
  | .arr xs, a => kids S moves path xs a
  | _, _ => .panic
/-- The loop over the children (xml.rs 109-118, 173-182). -/
def kids (S : Setup) (moves : Bool) (path : List Str) : List Json → Acc → Res (List Kid × Acc)
  | [], a => .ok ([], a)
  | x :: xs, a => (node S moves path x a).bind fun r => (placedIn moves x r.1).bind fun ks =>
      (kids S moves path xs r.2).map fun rs => (ks ++ rs.1, rs.2)
end

/-- The root of the document: a text is ignored with a warning (xml.rs 35-38). -/
def rootOf : Made → Option Elem
  | .elem e => some e
  | .text _ => none

/-- `generate_xml_body` (xml.rs 23-55), up to writing the document: its root element, if it has one. -/
def generate (S : Setup) (moves : Bool) (o : Obj) (a : Acc) : Res (Option Elem × Acc) :=
  match RuleJson.get "root" o with
  | some (.obj r) => (node S moves ["$".toList] (.obj r) a).map fun r => (rootOf r.1, r.2)
  | _ => .ok (none, a)

/-- `process_xml` (handles.rs 1092-1102) for a description that is JSON. -/
def processXml (S : Setup) (moves : Bool) (j : Json) (a : Acc) : Res (Option Elem × Acc) :=
  match j with
  | .obj o => generate S moves o a
  | _ => .err

end XmlBuild
end Verif
