import Verif.Model.Schema
/-!
# Schemas without their annotations, without text and comments, and without where things stand
-/
namespace Xsd
namespace Ann

/-- An attribute, and a start tag, without where they stand in the text. -/
def placelessAttr (a : XAttr) : XAttr := { a with start := 0 }
def placeless (i : ElemInfo) : ElemInfo := { i with attrs := i.attrs.map placelessAttr, start := 0 }

/-- Nodes without the annotations among and in them, without places, and without text and comments. -/
def bareKids : List XNode → List XNode
  | [] => []
  | .elem i cs :: ns =>
    if i.name = ⟨c!"annotation", some nsXsd⟩ then bareKids ns else .elem (placeless i) (bareKids cs) :: bareKids ns
  | .text _ :: ns => bareKids ns
  | .other :: ns => bareKids ns

/-- A document without its annotations, text, comments and places. -/
def bareDoc (d : XDoc) : XDoc := { root := (placeless d.root.1, bareKids d.root.2), pos := fun _ => (0, 0) }

/-- A file without its annotations, text, comments and places. -/
def bareFile : FileContent → FileContent
  | .doc d => .doc (bareDoc d)
  | .malformed _ _ => .malformed 0 0

/-- The same files, all without their annotations, text, comments and places. -/
def bareFiles (F : Files) : Files := { F with read := fun p => (F.read p).map bareFile }

/-- A definition of a member, and a member, without its documentation. -/
def plainLeafDef (d : LeafDef) : LeafDef := { d with docs := none }
def plainLeaf (l : Leaf) : Leaf := { l with definition := plainLeafDef l.definition }

/-- An attribute without its documentation. -/
def plainAttr (a : Attribute) : Attribute := { a with docs := none }

/-- The content of an element without its documentation. -/
def plainContent : ElementContent → ElementContent
  | .leaf n d => .leaf n (plainLeafDef d)
  | .leaves ls => .leaves (ls.map plainLeaf)

/-- A definition of an element without its documentation. -/
def plainElem (d : ElementDef) : ElementDef :=
  { d with attributes := d.attributes.map plainAttr, content := d.content.map plainContent, docs := none }

/-- A definition without its documentation. -/
def plainRoot : Root → Root
  | .leaf d => .leaf (plainLeafDef d)
  | .enum ns => .enum ns
  | .element d => .element (plainElem d)
  | .choice vs v _ => .choice (vs.map plainLeaf) v none

/-- Definitions without their documentation. -/
def plainRoots (rs : List (Name × Root)) : List (Name × Root) := rs.map (fun p => (p.1, plainRoot p.2))

/-- A schema without its documentation. -/
def plainContext (S : SchemaContext) : SchemaContext := { S with elements := plainRoots S.elements }
def plainSchema (P : PSchema) : PSchema := { P with context := plainContext P.context }

end Ann
end Xsd
