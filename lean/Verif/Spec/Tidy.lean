import Verif.Model.Schema
/-!
# The parts of schema files that carry no meaning

The specification of C81: the order of attributes, and elements and attributes that are not in the language of XML Schema.
-/
namespace Xsd
namespace Tidy

/-- The attributes in the language of XML Schema: those without a namespace. -/
def plainAttrs (i : ElemInfo) : List XAttr := i.attrs.filter (fun a => a.ns = none)

/-- A way to order the attributes of each element. -/
structure Order where
  ord : ElemInfo → List XAttr
  perm : ∀ i, (ord i).Perm (plainAttrs i)

/-- An attribute without its place. -/
def unplaced (a : XAttr) : XAttr := { a with start := 0 }

section
variable (O : Order)

/-- An element without its place and the attributes of other languages, with the others in some order. -/
def tidyInfo (i : ElemInfo) : ElemInfo := ⟨i.name, (O.ord i).map unplaced, i.nss, 0⟩

/-- The text at the beginning of a documentation. -/
def leading (i : ElemInfo) (cs : List XNode) : List XNode :=
  if i.name.loc = c!"documentation" then
    match cs with
    | .text s :: _ => [.text s]
    | _ => []
  else []

/-- The elements of the language of XML Schema, with only such elements in them. Text that is not documentation and comments
are left out. -/
def tidyKids : List XNode → List XNode
  | [] => []
  | .elem i cs :: ns =>
    if i.name.ns = some nsXsd then .elem (tidyInfo O i) (leading i cs ++ tidyKids cs) :: tidyKids ns else tidyKids ns
  | .text _ :: ns => tidyKids ns
  | .other :: ns => tidyKids ns

/-- A document without what carries no meaning. -/
def tidyDoc (d : XDoc) : XDoc := ⟨(tidyInfo O d.root.1, leading d.root.1 d.root.2 ++ tidyKids O d.root.2), fun _ => (0, 0)⟩

/-- A file without what carries no meaning. -/
def tidyFile : FileContent → FileContent
  | .doc d => .doc (tidyDoc O d)
  | .malformed _ _ => .malformed 0 0

end

/-- The files without what carries no meaning, in each file with another order of attributes. -/
def tidyFiles (O : Str → Order) (F : Files) : Files := { F with read := fun p => (F.read p).map (tidyFile (O p)) }

/-! The parser looks at the local names of attributes only, so attributes of other languages must not be named like those of
XML Schema. -/

/-- The names of attributes that the parser looks up. -/
def known : List Str :=
  [c!"name", c!"type", c!"base", c!"ref", c!"value", c!"minOccurs", c!"maxOccurs", c!"use", c!"default", c!"fixed", c!"mixed",
   c!"schemaLocation", c!"targetNamespace"]

/-- No attribute is there twice (which XML demands), and attributes of other languages have names of their own. -/
structure Clear (i : ElemInfo) : Prop where
  once : ((plainAttrs i).map XAttr.loc).Nodup
  foreign : ∀ a ∈ i.attrs, a.ns ≠ none → a.loc ∉ known ∧ ∀ b ∈ plainAttrs i, b.loc ≠ a.loc

/-- The elements of the language of XML Schema that are in such elements only. -/
def schemaInfos : List XNode → List ElemInfo
  | [] => []
  | .elem i cs :: ns => if i.name.ns = some nsXsd then i :: (schemaInfos cs ++ schemaInfos ns) else schemaInfos ns
  | .text _ :: ns => schemaInfos ns
  | .other :: ns => schemaInfos ns

/-- All elements of the document are clear. -/
def ClearDoc (d : XDoc) : Prop := Clear d.root.1 ∧ ∀ i ∈ schemaInfos d.root.2, Clear i

/-- All documents are clear. -/
def ClearFiles (F : Files) : Prop := ∀ p d, F.read p = some (.doc d) → ClearDoc d

end Tidy
end Xsd
