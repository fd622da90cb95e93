import Verif.Model.SchemaText
import Verif.Spec.Blame
/-!
# Specification: what a schema error points to in the text of a file
-/
namespace Xsd

/-- The text `t` starts at a row and a column of `s`, counted from 1. -/
def AtRowCol (s : Str) (row col : Nat) (t : Str) : Prop :=
  ∃ before line, s = before ++ line ++ t ∧ '\n' ∉ line ∧ (before = [] ∨ ∃ b, before = b ++ ['\n']) ∧
    before.count '\n' + 1 = row ∧ line.length + 1 = col

/-- The qualified name is the local name, perhaps with a prefix. -/
def HasLocal (q n : Str) : Prop := q = n ∨ ∃ p, q = p ++ ':' :: n ∧ ':' ∉ p

/-- Here starts the start tag of an element with this local name. -/
def TagAt (n t : Str) : Prop :=
  ∃ q rest, t = '<' :: q ++ rest ∧ HasLocal q n ∧ ∀ c r, rest = c :: r → XmlText.isNameChar c = false ∧ c ≠ ':'

/-- Here starts an attribute with this local name. -/
def AttrAt (n t : Str) : Prop :=
  ∃ q sp rest, t = q ++ sp ++ '=' :: rest ∧ HasLocal q n ∧ ∀ c ∈ sp, isXmlSpace c = true

/-- An error points to this text: the element or the attribute that it is about starts here. -/
def PointsAt : XErr → Str → Prop
  | .xml, _ => False
  | .missingChild _ _, t => ∃ n, TagAt n t
  | .missingAttribute _ el _, t => TagAt el t
  | .textExpected n _, t => TagAt n t
  | .unsupportedAttribute n _ _, t => AttrAt n t
  | .unsupportedChild n _ _, t => TagAt n t
  | .unsupportedElement n _, t => TagAt n t
  | .unsupportedAttributeValue n _ el _, t => AttrAt n t ∨ TagAt el t
  | .unexpectedAttribute _ el _, t => TagAt el t
  | .missingElement _ p _, t => TagAt p t
  | .missingNamespace _ _, t => ∃ n, AttrAt n t
  | .parseInt _, t => AttrAt c!"value" t ∨ AttrAt c!"minOccurs" t ∨ AttrAt c!"maxOccurs" t
  | .parseDecimal _, t => AttrAt c!"value" t
  | .unsupportedType _ _, t => ∃ n, AttrAt n t

/-! ## Trees with positions and namespaces -/

namespace XmlText

/-- The text `t` starts at a byte of `s`. -/
def AtByte (s : Str) (p : Nat) (t : Str) : Prop := ∃ u, s = u ++ t ∧ (u.map Char.utf8Size).sum = p

/-- A start tag with this name is at an offset. -/
def TagPos (s : Str) (p : Nat) (n : Str) : Prop :=
  ∃ rest, AtByte s p ('<' :: n ++ rest) ∧ ∀ c r, rest = c :: r → XmlText.isNameChar c = false ∧ c ≠ ':'

/-- An attribute with this name is at an offset. -/
def AttrPos (s : Str) (p : Nat) (n : Str) : Prop := ∃ sp rest, AtByte s p (n ++ sp ++ '=' :: rest) ∧ ∀ c ∈ sp, isXmlSpace c = true

/-- Attributes with these names are at these offsets. -/
inductive AttrsPos (s : Str) : List Str → List Nat → Prop where
  | nil : AttrsPos s [] []
  | cons {n ns p ps} (h : AttrPos s p n) (hs : AttrsPos s ns ps) : AttrsPos s (n :: ns) (p :: ps)

/-- One of these attributes declares that the prefix (`none`: the default namespace) stands for the namespace. -/
def Declares (raw : List (Str × Str)) : Option Str → Str → Prop
  | none, u => (c!"xmlns", u) ∈ raw
  | some p, u => (c!"xmlns:" ++ p, u) ∈ raw

/-- The namespaces in scope of an element with these attributes, in an element with the namespaces `outer` in scope: those that are declared
here, and the others. The prefix `xml` is not listed. -/
def InScope (raw : List (Str × Str)) (outer nss : List (Option Str × Str)) : Prop :=
  ∀ p u, (p, u) ∈ nss ↔ p ≠ some c!"xml" ∧ (Declares raw p u ∨ (∀ u', ¬Declares raw p u') ∧ (p, u) ∈ outer)

/-- The prefixed name `q` is this name. -/
def Prefixed (nss : List (Option Str × Str)) (q : Str) (n : QName) : Prop :=
  ∃ p u, q = p ++ ':' :: n.loc ∧ ':' ∉ p ∧ n.ns = some u ∧ (p ≠ c!"xml" → (some p, u) ∈ nss)

/-- The name `q` of an element is this name. -/
def StandsFor (nss : List (Option Str × Str)) (q : Str) (n : QName) : Prop :=
  Prefixed nss q n ∨ q = n.loc ∧ ':' ∉ q ∧
    ((n.ns = none ∧ ∀ u, (none, u) ∈ nss → u = []) ∨ ∃ u, u ≠ [] ∧ n.ns = some u ∧ (none, u) ∈ nss)

/-- The name `q` of an attribute is this name. -/
def AttrStandsFor (nss : List (Option Str × Str)) (q : Str) (n : QName) : Prop :=
  Prefixed nss q n ∨ q = n.loc ∧ ':' ∉ q ∧ n.ns = none

/-- The name declares a namespace. -/
def IsDecl (n : Str) : Prop := n = c!"xmlns" ∨ ∃ p, n = c!"xmlns:" ++ p

/-- What is known of an element is in its start tag, where it should be: its name, its attributes other than namespace
declarations, and the namespaces in scope. -/
def InfoPos (s : Str) (outer : List (Option Str × Str)) (i : ElemInfo) : Prop :=
  ∃ q raw ps, TagPos s i.start q ∧ AttrsPos s (raw.map Prod.fst) ps ∧ (raw.map Prod.fst).Nodup ∧ InScope raw outer i.nss ∧ StandsFor i.nss q i.name ∧
    (∀ a ∈ i.attrs, ∃ n, ((n, a.value), a.start) ∈ raw.zip ps ∧ ¬IsDecl n ∧ AttrStandsFor i.nss n ⟨a.loc, a.ns⟩) ∧
    (∀ n v p, ((n, v), p) ∈ raw.zip ps → ¬IsDecl n → ∃ a ∈ i.attrs, a.start = p ∧ a.value = v ∧ AttrStandsFor i.nss n ⟨a.loc, a.ns⟩)

/-- All that is known of a node is in the text. -/
inductive NodePos (s : Str) : List (Option Str × Str) → XNode → Prop where
  | elem {outer i cs} (h : InfoPos s outer i) (hs : ∀ c ∈ cs, NodePos s i.nss c) : NodePos s outer (.elem i cs)
  | text (outer t) : NodePos s outer (.text t)
  | other (outer) : NodePos s outer .other

end XmlText

mutual
/-- A node without positions and namespaces in scope. -/
def bareNode : XNode → XNode
  | .elem i cs => .elem ⟨i.name, i.attrs.map (fun a => { a with start := 0 }), [], 0⟩ (bareNodes cs)
  | .text s => .text s
  | .other => .other
def bareNodes : List XNode → List XNode
  | [] => []
  | c :: cs => bareNode c :: bareNodes cs
end

/-- An element without positions and namespaces in scope. -/
def bareElem (e : Elem) : Elem := (⟨e.1.name, e.1.attrs.map (fun a => { a with start := 0 }), [], 0⟩, bareNodes e.2)

end Xsd
