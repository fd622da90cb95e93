import Verif.Props.Particles
/-!
# Specification: which nodes of a schema are interpreted, and what they may carry
-/
namespace Xsd

/-- What references and names of a document depend on. -/
structure Env where
  defaultNs : Option Str
  docNss : List (Str × Str)
  target : Namespace
  isQualified : Bool

/-- The environment of a context. -/
def PCtx.env (s : PCtx) : Env := ⟨s.defaultNs, s.docNss, s.target, s.isQualified⟩

/-- The role in which a node is interpreted. `occ` are the attributes of a sequence or choice that have a meaning where it
stands. -/
inductive Kind where
  | topElement
  | localElement
  | complexType (top : Bool)
  | simpleType (top : Bool)
  | simpleContent
  | complexContent
  | simpleExtension
  | complexExtension
  | sequence (occ : List Str)
  | choice (occ : List Str)
  | attribute
  | restriction
  | annotation

/-- The `type` attribute names a type of the XSD namespace. -/
def BuiltinType (e : Env) (nd : Nd) : Prop :=
  ∃ v n, nd.value c!"type" = some v ∧ Denotes e.defaultNs e.docNss v n (some nsXsd)

/-- The attributes without a namespace that have a meaning on a node. -/
def Allowed (e : Env) : Kind → Nd → Str → Prop
  | .topElement, nd, n => n = c!"name" ∨ n = c!"type" ∨ (n = c!"fixed" ∧ BuiltinType e nd)
  | .localElement, nd, n =>
    n = c!"minOccurs" ∨ n = c!"maxOccurs" ∨
      (nd.attr c!"ref" ≠ none ∧ n = c!"ref") ∨
      (nd.attr c!"ref" = none ∧ (n ∈ [c!"name", c!"default", c!"form", c!"type"] ∨ (n = c!"fixed" ∧ BuiltinType e nd)))
  | .complexType top, _, n => n = c!"mixed" ∨ (top = true ∧ n = c!"name")
  | .simpleType top, _, n => top = true ∧ n = c!"name"
  | .simpleContent, _, _ => False
  | .complexContent, _, _ => False
  | .sequence occ, _, n => n ∈ occ
  | .choice occ, _, n => n ∈ occ
  | .attribute, nd, n =>
    n ∈ [c!"name", c!"default", c!"use"] ∨
      ((∀ c ∈ nd.xsdKids, c.name ≠ c!"simpleType") ∧ (n = c!"type" ∨ (n = c!"fixed" ∧ BuiltinType e nd)))
  | .annotation, _, _ => False
  | .simpleExtension, _, _ => True
  | .complexExtension, _, _ => True
  | .restriction, _, _ => True

/-- An attribute that is not followed by one with the same local name. -/
def Effective (nd : Nd) (a : XAttr) : Prop := ∃ l r, nd.info.attrs = l ++ a :: r ∧ ∀ b ∈ r, b.loc ≠ a.loc

/-- The node's attributes without a namespace all have a meaning. Prohibited attribute declarations are left out. -/
def AttrsOK (e : Env) (k : Kind) (nd : Nd) : Prop :=
  (k = .attribute → nd.value c!"use" ≠ some c!"prohibited") →
  ∀ a, Effective nd a → a.ns = none → Allowed e k nd a.loc

/-- The occurrence attributes of a sequence or choice. -/
def minMax : List Str := [c!"maxOccurs", c!"minOccurs"]

/-- The XSD child `c` of a node has a meaning, in role `k'`. -/
inductive Step : Kind → Nd → Kind → Nd → Prop where
  | topComplexType {nd c} (hc : c ∈ nd.xsdKids) (ht : nd.attr c!"type" = none) (hn : c.name = c!"complexType") :
      Step .topElement nd (.complexType false) c
  | topSimpleType {nd c} (hc : c ∈ nd.xsdKids) (ht : nd.attr c!"type" = none) (hn : c.name = c!"simpleType") :
      Step .topElement nd (.simpleType false) c
  | topAnnotation {nd c} (hc : c ∈ nd.xsdKids) (hn : c.name = c!"annotation") : Step .topElement nd .annotation c
  | localComplexType {nd c} (hc : c ∈ nd.xsdKids) (hr : nd.attr c!"ref" = none) (ht : nd.attr c!"type" = none)
      (hn : c.name = c!"complexType") : Step .localElement nd (.complexType false) c
  | localSimpleType {nd c} (hc : c ∈ nd.xsdKids) (hr : nd.attr c!"ref" = none) (ht : nd.attr c!"type" = none)
      (hn : c.name = c!"simpleType") : Step .localElement nd (.simpleType false) c
  | complexSimpleContent {nd c t} (hc : c ∈ nd.xsdKids) (hn : c.name = c!"simpleContent") : Step (.complexType t) nd .simpleContent c
  | complexComplexContent {nd c t} (hc : c ∈ nd.xsdKids) (hn : c.name = c!"complexContent") : Step (.complexType t) nd .complexContent c
  | complexSequence {nd c t} (hc : c ∈ nd.xsdKids) (hn : c.name = c!"sequence") : Step (.complexType t) nd (.sequence minMax) c
  | complexAll {nd c t} (hc : c ∈ nd.xsdKids) (hn : c.name = c!"all") : Step (.complexType t) nd (.sequence minMax) c
  | complexChoice {nd c t} (hc : c ∈ nd.xsdKids) (hn : c.name = c!"choice") : Step (.complexType t) nd (.choice []) c
  | complexAttribute {nd c t} (hc : c ∈ nd.xsdKids) (hn : c.name = c!"attribute") : Step (.complexType t) nd .attribute c
  | complexAnnotation {nd c t} (hc : c ∈ nd.xsdKids) (hn : c.name = c!"annotation") : Step (.complexType t) nd .annotation c
  | simpleRestriction {nd c t} (hc : c ∈ nd.xsdKids) (hn : c.name = c!"restriction") : Step (.simpleType t) nd .restriction c
  | simpleAnnotation {nd c t} (hc : c ∈ nd.xsdKids) (hn : c.name = c!"annotation") : Step (.simpleType t) nd .annotation c
  | simpleExtension {nd c} (hc : c ∈ nd.xsdKids) (hn : c.name = c!"extension") : Step .simpleContent nd .simpleExtension c
  | complexExtension {nd c} (hc : c ∈ nd.xsdKids) (hn : c.name = c!"extension") : Step .complexContent nd .complexExtension c
  | simpleExtAttribute {nd c} (hc : c ∈ nd.xsdKids) (hn : c.name = c!"attribute") : Step .simpleExtension nd .attribute c
  | complexExtAttribute {nd c} (hc : c ∈ nd.xsdKids) (hn : c.name = c!"attribute") : Step .complexExtension nd .attribute c
  | complexExtSequence {nd c} (hc : c ∈ nd.xsdKids) (hn : c.name = c!"sequence") :
      Step .complexExtension nd (.sequence [c!"minOccurs"]) c
  | seqElement {nd c occ} (hc : c ∈ nd.xsdKids) (hn : c.name = c!"element") : Step (.sequence occ) nd .localElement c
  | seqChoice {nd c occ} (hc : c ∈ nd.xsdKids) (hn : c.name = c!"choice") : Step (.sequence occ) nd (.choice minMax) c
  | seqSequence {nd c occ} (hc : c ∈ nd.xsdKids) (hn : c.name = c!"sequence") :
      Step (.sequence occ) nd (.sequence [c!"minOccurs"]) c
  | choiceElement {nd c occ} (hc : c ∈ nd.xsdKids) (hn : c.name = c!"element") : Step (.choice occ) nd .localElement c
  | choiceSequence {nd c occ} (hc : c ∈ nd.xsdKids) (hn : c.name = c!"sequence") : Step (.choice occ) nd (.sequence minMax) c
  | attrSimpleType {nd c} (hc : c ∈ nd.xsdKids) (hn : c.name = c!"simpleType") : Step .attribute nd (.simpleType false) c
  | attrAnnotation {nd c} (hc : c ∈ nd.xsdKids) (hn : c.name = c!"annotation") : Step .attribute nd .annotation c

/-- The nodes that are interpreted below a node. -/
inductive Within : Kind → Nd → Kind → Nd → Prop where
  | refl (k nd) : Within k nd k nd
  | step {k nd k' c k'' d} (h : Step k nd k' c) (hs : Within k' c k'' d) : Within k nd k'' d

/-- The facets a restriction may have. -/
def facetNames : List Str :=
  [c!"enumeration", c!"length", c!"minLength", c!"maxLength", c!"pattern", c!"minInclusive", c!"maxInclusive",
   c!"fractionDigits", c!"totalDigits"]

/-- Every XSD child of the node has a meaning. Sequences and choices may also have annotations, which are skipped; local
elements are checked only if they have an anonymous type. -/
def ChildrenOK (k : Kind) (nd : Nd) : Prop :=
  match k with
  | .restriction => ∀ c ∈ nd.xsdKids, c.name ∈ facetNames
  | .annotation => ∀ c ∈ nd.xsdKids, c.name = c!"documentation"
  | .sequence _ | .choice _ => ∀ c ∈ nd.xsdKids, c.name = c!"annotation" ∨ ∃ k', Step k nd k' c
  | .localElement => (∃ k' c, Step .localElement nd k' c) → ∀ c ∈ nd.xsdKids, c.name = c!"annotation" ∨ ∃ k', Step k nd k' c
  | _ => ∀ c ∈ nd.xsdKids, ∃ k', Step k nd k' c

/-- The role of a top-level child of a schema, by its name. -/
def topKind (n : Str) : Option Kind :=
  if n = c!"element" then some .topElement
  else if n = c!"complexType" then some (.complexType true)
  else if n = c!"simpleType" then some (.simpleType true)
  else none

/-- The environment of a document: its declarations, all of them if no prefix is declared twice, and its
`elementFormDefault`. -/
structure EnvOf (root : ElemInfo) (e : Env) : Prop where
  pfx : ∀ p u, (p, u) ∈ e.docNss → (some p, u) ∈ root.nss
  dflt : ∀ u, e.defaultNs = some u → (none, u) ∈ root.nss
  all : (root.nss.map Prod.fst).Nodup →
    (∀ p u, (some p, u) ∈ root.nss → (p, u) ∈ e.docNss) ∧ (∀ u, (none, u) ∈ root.nss → e.defaultNs = some u) ∧
    (e.docNss.map Prod.fst).Nodup
  qualified : e.isQualified = true ↔ attrOf root c!"elementFormDefault" = some c!"qualified"

/-- The target namespace of a document. -/
def targetOf (d : XDoc) : Option Str := (Nd.of d.root).value c!"targetNamespace"

end Xsd
