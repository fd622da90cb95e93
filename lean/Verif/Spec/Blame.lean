import Verif.Spec.Files
import Verif.Spec.Numeral
/-!
# Specification: what an error of the parser says about the document
-/
namespace Xsd

/-- An element is inside another one (or is that one). -/
inductive Inside : Elem → Elem → Prop where
  | refl (e) : Inside e e
  | kid {e i cs f} (h : XNode.elem i cs ∈ e.2) (h' : Inside (i, cs) f) : Inside e f

/-- The value of the attribute names something in the namespace of XML Schema: the prefix is declared so, or there is none and it is the
default namespace. -/
def InXsd (D : List (Option Str × Str)) (v n : Str) : Prop :=
  (∃ p, Prefixed v p n ∧ (some p, nsXsd) ∈ D) ∨ (v = n ∧ ':' ∉ v ∧ (none, nsXsd) ∈ D)

/-- The value of the attribute names something in another namespace, or in none. -/
def OutsideXsd (D : List (Option Str × Str)) (v : Str) : Prop :=
  (∃ p n u, Prefixed v p n ∧ (some p, u) ∈ D ∧ u ≠ nsXsd) ∨
    (':' ∉ v ∧ ((∀ u, (none, u) ∉ D) ∨ ∃ u, (none, u) ∈ D ∧ u ≠ nsXsd))

/-- The elements that are supported inside elements of a schema whose children are not all named in advance. -/
def supportedIn : List (Str × List Str) :=
  [(c!"schema", [c!"element", c!"complexType", c!"simpleType", c!"include", c!"import"]),
   (c!"sequence", [c!"element", c!"choice", c!"sequence", c!"annotation"]),
   (c!"all", [c!"element", c!"choice", c!"sequence", c!"annotation"]),
   (c!"choice", [c!"element", c!"sequence", c!"annotation"]),
   (c!"restriction", [c!"enumeration", c!"length", c!"minLength", c!"maxLength", c!"pattern", c!"minInclusive", c!"maxInclusive",
     c!"fractionDigits", c!"totalDigits"])]

/-- The element is not supported where it is: it is the root element but not a `schema`, or a child of an element of the document that
does not support it. -/
def UnsupportedHere (root e : Elem) : Prop :=
  (e = root ∧ e.1.name ≠ ⟨c!"schema", some nsXsd⟩) ∨
    ∃ f ns, Inside root f ∧ XNode.elem e.1 e.2 ∈ f.2 ∧ (f.1.name.loc, ns) ∈ supportedIn ∧ e.1.name.loc ∉ ns

/-- The element has an attribute with the local name. -/
def HasAttr (e : Elem) (n : Str) : Prop := ∃ a ∈ e.1.attrs, a.loc = n

/-- The element has a child of XML Schema with the name. -/
def HasChild (e : Elem) (n : Str) : Prop := ∃ i cs, XNode.elem i cs ∈ e.2 ∧ i.name = ⟨n, some nsXsd⟩

/-- The attributes that have a meaning on an element, by the element that it is in. -/
def attrMeanings : List (Str × List Str × List Str) :=
  [(c!"element", [c!"schema"], [c!"name", c!"type"]),
   (c!"element", [c!"sequence", c!"all", c!"choice"], [c!"minOccurs", c!"maxOccurs", c!"ref"]),
   (c!"complexType", [c!"schema"], [c!"name", c!"mixed"]),
   (c!"complexType", [c!"element"], [c!"mixed"]),
   (c!"simpleType", [c!"schema"], [c!"name"]),
   (c!"sequence", [c!"complexType", c!"choice"], [c!"minOccurs", c!"maxOccurs"]),
   (c!"sequence", [c!"extension", c!"sequence", c!"all"], [c!"minOccurs"]),
   (c!"all", [c!"complexType"], [c!"minOccurs", c!"maxOccurs"]),
   (c!"choice", [c!"sequence", c!"all"], [c!"minOccurs", c!"maxOccurs"]),
   (c!"attribute", [c!"complexType", c!"extension"], [c!"name", c!"default", c!"use"])]

/-- The type of the element or attribute is one of XML Schema, whichever of the declarations of the prefix is taken. -/
def TypeInXsd (D : List (Option Str × Str)) (e : Elem) : Prop :=
  HasAttr e c!"type" ∧ ∀ a ∈ e.1.attrs, a.loc = c!"type" → (∃ t, InXsd D a.value t) ∧ ¬ OutsideXsd D a.value

/-- The attribute has a meaning on the element `e` in the element `f`. -/
inductive AttrMeaning (D : List (Option Str × Str)) (f e : Elem) (n : Str) : Prop where
  | listed {ps ns} (h : (e.1.name.loc, ps, ns) ∈ attrMeanings) (hp : f.1.name.loc ∈ ps) (hn : n ∈ ns)
  | declared (he : e.1.name.loc = c!"element") (hp : f.1.name.loc ∈ [c!"sequence", c!"all", c!"choice"]) (hr : ¬ HasAttr e c!"ref")
      (hn : n ∈ [c!"name", c!"default", c!"form", c!"type"])
  | fixed (he : e.1.name.loc = c!"element") (hp : f.1.name.loc ∈ [c!"schema", c!"sequence", c!"all", c!"choice"])
      (hr : f.1.name.loc = c!"schema" ∨ ¬ HasAttr e c!"ref") (ht : TypeInXsd D e) (hn : n = c!"fixed")
  | attrType (he : e.1.name.loc = c!"attribute") (hp : f.1.name.loc ∈ [c!"complexType", c!"extension"]) (hs : ¬ HasChild e c!"simpleType")
      (hn : n = c!"type")
  | attrFixed (he : e.1.name.loc = c!"attribute") (hp : f.1.name.loc ∈ [c!"complexType", c!"extension"]) (hs : ¬ HasChild e c!"simpleType")
      (ht : TypeInXsd D e) (hn : n = c!"fixed")

/-- The children that have a meaning, wherever in the element they are. -/
inductive ChildMeaning (e : Elem) : Str → Prop where
  | documentation (he : e.1.name.loc = c!"annotation") : ChildMeaning e c!"documentation"
  | attribute (he : e.1.name.loc = c!"complexType") (hs : ¬ HasChild e c!"simpleContent") (hc : ¬ HasChild e c!"complexContent") :
      ChildMeaning e c!"attribute"
  | extAttribute (he : e.1.name.loc = c!"extension") : ChildMeaning e c!"attribute"

/-- The children of which the first has a meaning in the element `e` in the element `f`. -/
inductive FirstMeaning (f e : Elem) : Str → Prop where
  | annotation (he : e.1.name.loc ∈ [c!"element", c!"complexType", c!"simpleType", c!"attribute"]) : FirstMeaning f e c!"annotation"
  | complexType (he : e.1.name.loc = c!"element") (ht : ¬ HasAttr e c!"type") : FirstMeaning f e c!"complexType"
  | simpleType (he : e.1.name.loc = c!"element") (ht : ¬ HasAttr e c!"type") (hc : ¬ HasChild e c!"complexType") :
      FirstMeaning f e c!"simpleType"
  | restriction (he : e.1.name.loc = c!"simpleType") : FirstMeaning f e c!"restriction"
  | attrSimpleType (he : e.1.name.loc = c!"attribute") : FirstMeaning f e c!"simpleType"
  | extension (he : e.1.name.loc ∈ [c!"simpleContent", c!"complexContent"]) : FirstMeaning f e c!"extension"
  | simpleContent (he : e.1.name.loc = c!"complexType") : FirstMeaning f e c!"simpleContent"
  | complexContent (he : e.1.name.loc = c!"complexType") (hs : ¬ HasChild e c!"simpleContent") : FirstMeaning f e c!"complexContent"
  | sequence (he : e.1.name.loc = c!"complexType") (hs : ¬ HasChild e c!"simpleContent") (hc : ¬ HasChild e c!"complexContent") :
      FirstMeaning f e c!"sequence"
  | all (he : e.1.name.loc = c!"complexType") (hs : ¬ HasChild e c!"simpleContent") (hc : ¬ HasChild e c!"complexContent")
      (hq : ¬ HasChild e c!"sequence") : FirstMeaning f e c!"all"
  | choice (he : e.1.name.loc = c!"complexType") (hs : ¬ HasChild e c!"simpleContent") (hc : ¬ HasChild e c!"complexContent")
      (hq : ¬ HasChild e c!"sequence") (ha : ¬ HasChild e c!"all") : FirstMeaning f e c!"choice"
  | extSequence (he : e.1.name.loc = c!"extension") (hf : f.1.name.loc = c!"complexContent") : FirstMeaning f e c!"sequence"

/-- The element is a child of an element of the document. -/
def ParentOf (root f e : Elem) : Prop := Inside root f ∧ XNode.elem e.1 e.2 ∈ f.2

/-- What the error says is true of the element, and its position is that of the element, of a child or of an attribute of it. The
prefixes of types are those that are declared at the root element of the document. -/
def Blames (x : Ext) (root : Elem) : XErr → Elem → Prop
  | .xml, _ => False
  | .missingChild n s, e => e.1.start = s ∧ ∀ i cs, XNode.elem i cs ∈ e.2 → i.name ≠ ⟨n, some nsXsd⟩
  | .missingAttribute n el s, e => e.1.start = s ∧ e.1.name.loc = el ∧ ∀ a ∈ e.1.attrs, a.loc ≠ n
  | .textExpected n s, e => e.1.start = s ∧ e.1.name.loc = n ∧ ∀ t rest, e.2 ≠ .text t :: rest
  | .unsupportedAttribute n el s, e => e.1.name.loc = el ∧ (∃ a ∈ e.1.attrs, a.loc = n ∧ a.ns = none ∧ a.start = s) ∧
    ∃ f, ParentOf root f e ∧ ¬ AttrMeaning root.1.nss f e n
  | .unsupportedChild n p s, e => e.1.name.loc = p ∧ ∃ l i cs r, e.2 = l ++ XNode.elem i cs :: r ∧ i.name = ⟨n, some nsXsd⟩ ∧ i.start = s ∧
    ¬ ChildMeaning e n ∧ ∃ f, ParentOf root f e ∧ (FirstMeaning f e n → ∃ j ds, XNode.elem j ds ∈ l ∧ j.name = ⟨n, some nsXsd⟩)
  | .unsupportedElement n s, e => e.1.start = s ∧ e.1.name.loc = n ∧ UnsupportedHere root e
  | .unsupportedAttributeValue n v el s, e =>
    e.1.name.loc = el ∧ ∃ a ∈ e.1.attrs, a.loc = n ∧ a.value = v ∧ (s = a.start ∨ s = e.1.start) ∧
      ((n = c!"mixed" ∧ v = c!"true") ∨
        (n = c!"use" ∧ v ∉ [c!"required", c!"optional", c!"prohibited"]) ∨
        (n = c!"base" ∧ el = c!"restriction" ∧ OutsideXsd root.1.nss v) ∨
        (((n = c!"base" ∧ el = c!"extension") ∨ (n = c!"ref" ∧ el = c!"element")) ∧ ∃ t, InXsd root.1.nss v t))
  | .unexpectedAttribute n el s, e => e.1.start = s ∧ e.1.name.loc = el ∧ n = c!"default" ∧ (∃ a ∈ e.1.attrs, a.loc = n) ∧
    ∃ a ∈ e.1.attrs, a.loc = c!"use" ∧ a.value = c!"required"
  | .missingElement n p s, e => e.1.start = s ∧ e.1.name.loc = p ∧ n = c!"simpleType|complexType" ∧
    ∀ i cs, XNode.elem i cs ∈ e.2 → i.name ≠ ⟨c!"simpleType", some nsXsd⟩ ∧ i.name ≠ ⟨c!"complexType", some nsXsd⟩
  | .missingNamespace pfx s, e => ∃ a ∈ e.1.attrs, a.start = s ∧ (∃ n, Prefixed a.value pfx n) ∧ ∀ u, (some pfx, u) ∉ root.1.nss
  | .parseInt s, e => ∃ a ∈ e.1.attrs, a.start = s ∧ ((a.loc = c!"value" ∧ ∀ n, ¬ Unsigned (2 ^ 64 - 1) a.value n) ∨
      ((a.loc = c!"minOccurs" ∨ (a.loc = c!"maxOccurs" ∧ a.value ≠ c!"unbounded")) ∧ ∀ n, ¬ Unsigned (2 ^ 32 - 1) a.value n))
  | .parseDecimal s, e => ∃ a ∈ e.1.attrs, a.start = s ∧ a.loc = c!"value" ∧ x.parseDecimal a.value = none
  | .unsupportedType n s, e => ∃ a ∈ e.1.attrs, a.start = s ∧ InXsd root.1.nss a.value n ∧ ∀ t, (n, t) ∉ builtin

/-- The file is `path`, or reached from it by includes and imports. -/
def Reached (F : Files) (path file : Str) : Prop := file = path ∨ Relation.TransGen (Includes F) path file

end Xsd
