import Verif.Spec.Legal
import Verif.Spec.Ascii
import Verif.Spec.Generable
import Verif.Spec.Buildable
/-!
# Specification: schema files of records

What the declarations in a class of schema files mean, read off the documents: elements and types that are texts, enumerations,
or records of elements and attributes. Nothing here refers to the parser or to its result.
-/
namespace Xsd.Flat

/-- What an element or attribute is declared to contain: a text of a built-in type, a fixed text, or what a component of the schema
says. -/
inductive Typ where
  | builtin (t : LiteralType)
  | fixed (s : Str)
  | own (q : QName)

/-- An element in a record. -/
structure ElementDecl where
  name : QName
  typ : Typ
  min : Nat
  max : MaxOccurs

/-- An attribute of a record. -/
structure AttributeDecl where
  name : Str
  typ : Typ
  required : Bool

/-- What is inside of a record. -/
inductive Content where
  | empty
  | text (t : LiteralType)
  | elements (ls : List ElementDecl)

/-- A top-level element or type. -/
inductive Def where
  | text (t : LiteralType)
  | fixed (s : Str)
  | enumeration (vs : List Str)
  | sameAs (q : QName)
  | record (c : Content) (as : List AttributeDecl)

/-- The namespace URI a reference is meant in: that of its prefix, or the default namespace, if there is one. -/
inductive RefersTo (root : ElemInfo) (v : Str) : QName → Prop where
  | pfx {p n u} (hv : Prefixed v p n) (hp : (some p, u) ∈ root.nss) : RefersTo root v ⟨n, some u⟩
  | dflt {u} (hv : ':' ∉ v) (hp : (none, u) ∈ root.nss) : RefersTo root v ⟨v, some u⟩
  | plain (hv : ':' ∉ v) (hp : ∀ u, (none, u) ∉ root.nss) : RefersTo root v ⟨v, none⟩

section
variable (d : XDoc)

/-- A reference to a built-in type. -/
def Builtin (v : Str) (t : LiteralType) : Prop := ∃ n, RefersTo d.root.1 v ⟨n, some nsXsd⟩ ∧ (n, t) ∈ builtin

/-- The `type` attribute of a node. -/
inductive TypeAttr (nd : Nd) : Typ → Prop where
  | builtin {v t} (hv : nd.value c!"type" = some v) (h : Builtin d v t) (hf : nd.value c!"fixed" = none) : TypeAttr nd (.builtin t)
  | fixed {v t s} (hv : nd.value c!"type" = some v) (h : Builtin d v t) (hf : nd.value c!"fixed" = some s) : TypeAttr nd (.fixed s)
  | own {v q} (hv : nd.value c!"type" = some v) (h : RefersTo d.root.1 v q) (hq : q.ns ≠ some nsXsd) : TypeAttr nd (.own q)

/-- The elements of a schema are in its target namespace if it says so. -/
def Qualified : Prop := attrOf d.root.1 c!"elementFormDefault" = some c!"qualified"

/-- The namespace of the local elements of a document. -/
inductive LocalNs : Option Str → Prop where
  | qualified (h : Qualified d) : LocalNs (targetOf d)
  | unqualified (h : ¬ Qualified d) : LocalNs none

/-- A `simpleType` node: a restriction of a built-in type, without or with enumeration values. -/
inductive SimpleType (nd : Nd) : Def → Prop where
  | text {r v t} (hr : r ∈ nd.xsdKids) (hn : r.name = c!"restriction") (hv : r.value c!"base" = some v) (h : Builtin d v t)
      (he : ∀ f ∈ r.xsdKids, f.name ≠ c!"enumeration") : SimpleType nd (.text t)
  | enumeration {r vs} (hr : r ∈ nd.xsdKids) (hn : r.name = c!"restriction")
      (he : Each (fun (f : Nd) v => f.value c!"value" = some v) (r.xsdKids.filter (fun f => f.name = c!"enumeration")) vs)
      (hne : vs ≠ []) : SimpleType nd (.enumeration vs)

/-- An `element` node in a sequence: a reference to a top-level element, or an element with a type; without any type its
content is not described. -/
inductive LocalElement (nd : Nd) : ElementDecl → Prop where
  | ref {v q mn mx} (hr : nd.value c!"ref" = some v) (h : RefersTo d.root.1 v q) (hq : q.ns ≠ some nsXsd) (hmn : MinOf nd mn)
      (hmx : MaxOf nd mx) : LocalElement nd ⟨q, .own q, mn, mx⟩
  | typed {n ty ns mn mx} (hr : nd.value c!"ref" = none) (hf : nd.value c!"form" = none) (hn : nd.value c!"name" = some n)
      (ht : TypeAttr d nd ty) (hns : LocalNs d ns) (hmn : MinOf nd mn) (hmx : MaxOf nd mx) : LocalElement nd ⟨⟨n, ns⟩, ty, mn, mx⟩
  | any {n ns mn mx} (hr : nd.value c!"ref" = none) (hf : nd.value c!"form" = none) (hn : nd.value c!"name" = some n)
      (ht : nd.value c!"type" = none) (hk : ∀ c ∈ nd.xsdKids, c.name ≠ c!"simpleType" ∧ c.name ≠ c!"complexType")
      (hns : LocalNs d ns) (hmn : MinOf nd mn) (hmx : MaxOf nd mx) : LocalElement nd ⟨⟨n, ns⟩, .builtin .any, mn, mx⟩

/-- An `attribute` node. -/
inductive AttributeNode (nd : Nd) : AttributeDecl → Prop where
  | typed {n ty} (hn : nd.value c!"name" = some n) (hs : ∀ c ∈ nd.xsdKids, c.name ≠ c!"simpleType") (ht : TypeAttr d nd ty)
      (hu : nd.value c!"use" ≠ some c!"prohibited") :
      AttributeNode nd ⟨n, ty, decide (nd.value c!"use" = some c!"required")⟩
  | simple {n c t} (hn : nd.value c!"name" = some n) (hc : c ∈ nd.xsdKids) (hcn : c.name = c!"simpleType") (h : SimpleType d c (.text t))
      (hu : nd.value c!"use" ≠ some c!"prohibited") :
      AttributeNode nd ⟨n, .builtin t, decide (nd.value c!"use" = some c!"required")⟩

/-- The `attribute` nodes in a node. -/
def attributeNodes (nd : Nd) : List Nd := nd.xsdKids.filter (fun c => c.name = c!"attribute")

/-- A `complexType` node: with nothing but attributes, with a sequence of elements, or the extension of a built-in type. -/
inductive ComplexType (nd : Nd) : Def → Prop where
  | empty {as} (hp : ∀ c ∈ nd.xsdKids, c.name = c!"attribute" ∨ c.name = c!"annotation")
      (ha : Each (AttributeNode d) (attributeNodes nd) as) : ComplexType nd (.record .empty as)
  | elements {c ls as} (hc : c ∈ nd.xsdKids) (hn : c.name = c!"sequence") (hmn : MinOf c 1) (hmx : MaxOf c (.number 1))
      (he : ∀ p ∈ c.particles, p.name = c!"element") (hl : Each (LocalElement d) c.particles ls)
      (ha : Each (AttributeNode d) (attributeNodes nd) as) : ComplexType nd (.record (.elements ls) as)
  | text {c r v t as} (hc : c ∈ nd.xsdKids) (hn : c.name = c!"simpleContent") (hr : r ∈ c.xsdKids) (hrn : r.name = c!"extension")
      (hv : r.value c!"base" = some v) (h : Builtin d v t) (ha : Each (AttributeNode d) (attributeNodes r) as) :
      ComplexType nd (.record (.text t) as)

/-- An element with a type is what the type is. -/
def Typ.toDef : Typ → Def
  | .builtin t => .text t
  | .fixed s => .fixed s
  | .own q => .sameAs q

/-- A top-level node. -/
inductive TopLevel (nd : Nd) : Def → Prop where
  | complexType {D} (hn : nd.name = c!"complexType") (h : ComplexType d nd D) : TopLevel nd D
  | simpleType {D} (hn : nd.name = c!"simpleType") (h : SimpleType d nd D) : TopLevel nd D
  | typed {ty} (hn : nd.name = c!"element") (h : TypeAttr d nd ty) : TopLevel nd ty.toDef
  | inlineComplex {c D} (hn : nd.name = c!"element") (ht : nd.value c!"type" = none) (hc : c ∈ nd.xsdKids) (hcn : c.name = c!"complexType")
      (h : ComplexType d c D) : TopLevel nd D
  | inlineSimple {c D} (hn : nd.name = c!"element") (ht : nd.value c!"type" = none) (hc : c ∈ nd.xsdKids) (hcn : c.name = c!"simpleType")
      (h : SimpleType d c D) : TopLevel nd D

end

section
variable (x : Ext) (F : Files) (path : Str)

/-- The components of the files that are read, with their names, which are in the target namespaces of their files. -/
inductive Component : QName → Def → Prop where
  | mk {p d c n D} (hr : Reads F path p d) (hc : c ∈ (Nd.of d.root).xsdKids) (hk : (topKind c.name).isSome = true)
      (hn : c.value c!"name" = some n) (h : TopLevel d c D) : Component ⟨n, targetOf d⟩ D

/-- The words that become fields of the struct for a record. -/
def fieldWords (q : QName) (c : Content) (as : List AttributeDecl) : List Str :=
  (match c with
    | .empty => []
    | .text _ => [q.loc]
    | .elements ls => ls.map (fun l => l.name.loc)) ++ as.map AttributeDecl.name

/-- The word that the variant for an enumeration value is made from: its letters, digits and (for hyphens and underscores)
underscores in Pascal case, preceded by a `V` if it would not begin with a letter. -/
def variantWord (v : Str) : Str :=
  let w := x.pascal ((v.filter (fun c => c = '_' ∨ c = '-' ∨ x.isAlphanumeric c = true)).map (fun c => if c = '-' then '_' else c))
  if w.head?.all x.isAlphabetic then w else 'V' :: w

/-- The definition has the form that elements with a type, and attributes with a type, can be made of. -/
def Def.Structured : Def → Prop
  | .enumeration _ => True
  | .record _ _ => True
  | _ => False

/-- What is required of a component besides its form. -/
structure Supported (q : QName) (D : Def) : Prop where
  /-- the name is an XML name, and makes a name for a type -/
  name : ':' ∉ q.loc ∧ Usable x (x.pascal q.loc) ∧ x.pascal q.loc ∉ rustKeywords ∧ x.pascal q.loc ∉ preludeTypes
  /-- types without structure become tuple structs, whose names are also names of functions -/
  newtype : ¬ D.Structured → x.pascal q.loc ∉ preludeConstructors
  /-- elements with a type of the schema are enumerations or records -/
  sameAs : ∀ q', D = .sameAs q' → ∃ D', Component F path q' D' ∧ D'.Structured
  /-- no value twice, and the words for the values are usable -/
  enumeration : ∀ vs, D = .enumeration vs → vs.Nodup ∧
    ∀ v ∈ vs, variantWord x v = [] ∨ (x.identOk (variantWord x v) = true ∧ variantWord x v ∉ rustKeywords)
  /-- the words for fields are usable and different -/
  fields : ∀ c as, D = .record c as → ((fieldWords q c as).map x.snake).Nodup ∧
    ∀ w ∈ fieldWords q c as, Usable x (x.snake w) ∧ x.snake w ∉ missedKeywords
  /-- elements in records have XML names and types that are defined -/
  elements : ∀ ls as, D = .record (.elements ls) as → ∀ l ∈ ls, ':' ∉ l.name.loc ∧
    ∀ q', l.typ = .own q' → ∃ D', Component F path q' D' ∧ ∀ s, D' ≠ .fixed s
  /-- attributes have XML names, and types that are built in, or string types or enumerations -/
  attributes : ∀ c as, D = .record c as → ∀ a ∈ as, ':' ∉ a.name ∧ a.name ≠ c!"xmlns" ∧
    ∀ q', a.typ = .own q' → ∃ D', Component F path q' D' ∧ ((∃ t, D' = .text t ∧ t.prim = .string) ∨ ∃ vs, D' = .enumeration vs)

/-- The value of one component is inside of that of another: not in a list, which is stored elsewhere. -/
inductive InsideOf : QName → QName → Prop where
  | sameAs {q q'} (h : Component F path q (.sameAs q')) : InsideOf q' q
  | element {q q' ls as l} (h : Component F path q (.record (.elements ls) as)) (hl : l ∈ ls) (ht : l.typ = .own q')
      (hmx : l.max = .number 0 ∨ l.max = .number 1) : InsideOf q' q

/-- Schema files with the declarations above, each with its own name. -/
structure FlatForms : Prop where
  /-- the files are supported -/
  legal : LegalFile x F path
  /-- in every file: no prefix is declared twice, names are in ASCII, the default namespace, if there is one, is that of XML Schema,
  and no namespace is empty -/
  files : ∀ p d, Reads F path p d → (d.root.1.nss.map Prod.fst).Nodup ∧ AsciiNames d.root ∧
    (∀ u, (none, u) ∈ d.root.1.nss → u = nsXsd) ∧ (∀ p u, (p, u) ∈ d.root.1.nss → u ≠ []) ∧ targetOf d ≠ some []
  /-- every definition is one of those above -/
  flat : ∀ p d, Reads F path p d → ∀ c ∈ (Nd.of d.root).xsdKids, (topKind c.name).isSome = true → ∃ D, TopLevel d c D
  /-- no two definitions have the same name in Pascal case -/
  unique : ∀ p d p' d', Reads F path p d → Reads F path p' d' → ∀ c ∈ (Nd.of d.root).xsdKids, ∀ c' ∈ (Nd.of d'.root).xsdKids,
    (topKind c.name).isSome = true → (topKind c'.name).isSome = true → ∀ n n', c.value c!"name" = some n → c'.value c!"name" = some n' →
    x.pascal n = x.pascal n' → c = c' ∧ d = d'

/-- Schema files of records. -/
structure FlatFile : Prop extends FlatForms x F path where
  /-- if the first file has qualified elements, so do all others -/
  qualified : ∀ d, F.read path = some (.doc d) → Qualified d → targetOf d ≠ none →
    ∀ p' d', Reads F path p' d' → Qualified d' ∧ targetOf d' ≠ none
  /-- the components are supported -/
  components : ∀ q D, Component F path q D → Supported x F path q D
  /-- no value is inside of itself -/
  sized : WellFounded (InsideOf F path)

end
end Xsd.Flat
