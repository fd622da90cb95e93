import Verif.Base
/-!
# XML trees as seen through roxmltree

The crate never looks at XML text itself: it uses `roxmltree::Node`. This file is the part of that view
that the code uses. `Verif/Model/XmlText.lean` says what is assumed of the text ⇄ tree translation.
-/
namespace Xsd

/-- `roxmltree::ExpandedName`: local name and namespace URI. Used at xsd/src/decode.rs:59, 97, 111. -/
structure QName where
  loc : Str
  ns : Option Str
  deriving Repr, DecidableEq

/-- `roxmltree::Attribute`: expanded name, value, and the start of its source range
(xsd-internal/src/xsd/node.rs:222-236). -/
structure XAttr where
  loc : Str
  ns : Option Str
  value : Str
  start : Nat
  deriving Repr, DecidableEq

/-- What an element carries besides its children: tag name, attributes, in-scope namespaces
(`None` prefix = default namespace) and the start of its source range. (`roxmltree::Node`, see xsd/src/decode.rs:41, xsd-internal/src/xsd/node.rs:54.) -/
structure ElemInfo where
  name : QName
  attrs : List XAttr
  nss : List (Option Str × Str)
  start : Nat
  deriving Repr, DecidableEq

/-- An XML node. `other` stands for comments and processing instructions, which no code in the
repository inspects. (`roxmltree::Node`, see xsd/src/decode.rs:41, xsd-internal/src/xsd/node.rs:54.) -/
inductive XNode where
  | elem (info : ElemInfo) (children : List XNode)
  | text (s : Str)
  | other
  deriving Repr

/-- An element node: its data and its child nodes (xsd/src/decode.rs:41). -/
abbrev Elem := ElemInfo × List XNode

namespace XNode

/-- `roxmltree::Node::is_element`, returning the element (xsd/src/decode.rs:60, 80). -/
def asElem : XNode → Option Elem
  | elem i cs => some (i, cs)
  | _ => none

end XNode

/-- `node.children().filter(|c| c.is_element())` (xsd/src/decode.rs:80). -/
def elemKids (cs : List XNode) : List Elem := cs.filterMap XNode.asElem

/-- `roxmltree::Node::attribute(&str)`: the first attribute without namespace and with that local
name (XML forbids a second one). Used at xsd/src/decode.rs:170. -/
def attrOf (i : ElemInfo) (name : Str) : Option Str :=
  (i.attrs.find? (fun a => a.ns = none ∧ a.loc = name)).map XAttr.value

/-- `tag_name.name() == name && tag_name.namespace() == namespace`
(xsd/src/decode.rs:60, 98, 112, 136, 144, 152). -/
def Elem.is (e : Elem) (q : QName) : Bool := e.1.name.loc == q.loc && e.1.name.ns == q.ns

theorem Elem.is_iff (e : Elem) (q : QName) : e.is q = true ↔ e.1.name = q := by
  obtain ⟨⟨⟨l, n⟩, _, _, _⟩, _⟩ := e
  obtain ⟨l', n'⟩ := q
  simp [Elem.is]

end Xsd
