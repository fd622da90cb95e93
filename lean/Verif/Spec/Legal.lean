import Verif.Spec.Grammar
import Verif.Spec.Files
/-!
# Specification: the schemas that are supported

`Verif/Spec/Grammar.lean` says which nodes are interpreted, in which role, and which attributes and children have a meaning.
Here: what else a node must have for the schema to be accepted.
-/
namespace Xsd

/-- The number of XSD children with a name. -/
def Nd.count (nd : Nd) (n : Str) : Nat := nd.xsdKids.countP (fun c => c.name = n)

/-- A reference to a built-in type that is supported. -/
def Builtin (e : Env) (v : Str) : Prop := ∃ n t, Denotes e.defaultNs e.docNss v n (some nsXsd) ∧ (n, t) ∈ builtin

/-- A reference to something outside the XSD namespace. -/
def OwnType (e : Env) (v : Str) : Prop := ∃ n u, Denotes e.defaultNs e.docNss v n u ∧ u ≠ some nsXsd

/-- A reference to a type that is supported. -/
def Resolves (e : Env) (v : Str) : Prop := Builtin e v ∨ OwnType e v

/-- The numbers of occurrences on a node can be read. -/
def MinOK (nd : Nd) : Prop := ∃ n, MinOf nd n
/-- The numbers of occurrences on a node can be read. -/
def MaxOK (nd : Nd) : Prop := ∃ m, MaxOf nd m

/-- The first XSD child of an annotation begins with text. -/
def HasText (nd : Nd) : Prop := ∀ d, nd.xsdKids.head? = some d → ∃ t rest, d.kids = .text t :: rest

/-- An annotation that is supported. -/
def AnnotationOK (e : Env) (nd : Nd) : Prop := AttrsOK e .annotation nd ∧ ChildrenOK .annotation nd ∧ HasText nd

/-- The first annotation of a node, if there is one, is supported. -/
def DocsOK (e : Env) (nd : Nd) : Prop := ∀ c, nd.xsdKids.find? (fun c => c.name = c!"annotation") = some c → AnnotationOK e c

/-- A facet with a value of the right form. -/
def FacetOK (x : Ext) (f : Nd) : Prop :=
  ∃ v, f.value c!"value" = some v ∧
    (f.name ∈ [c!"length", c!"minLength", c!"maxLength", c!"fractionDigits", c!"totalDigits"] →
      ∃ n, Unsigned 18446744073709551615 v n) ∧
    (f.name ∈ [c!"minInclusive", c!"maxInclusive"] → x.parseDecimal v ≠ none)

/-- What a node must have in its role, besides attributes and children with a meaning. -/
def Filled (x : Ext) (e : Env) : Kind → Nd → Prop
  | .topElement, nd =>
    nd.count c!"annotation" ≤ 1 ∧
    (∀ v, nd.value c!"type" = some v → Resolves e v) ∧
    (nd.value c!"type" = none → nd.count c!"complexType" + nd.count c!"simpleType" = 1)
  | .localElement, nd =>
    MinOK nd ∧ MaxOK nd ∧
    (∀ v, nd.value c!"ref" = some v → OwnType e v) ∧
    (nd.value c!"ref" = none →
      nd.value c!"name" ≠ none ∧ DocsOK e nd ∧ (∀ v, nd.value c!"type" = some v → Resolves e v) ∧
      (nd.value c!"type" = none → nd.count c!"complexType" + nd.count c!"simpleType" = 0 ∨
        (nd.count c!"complexType" + nd.count c!"simpleType" = 1 ∧ nd.count c!"annotation" ≤ 1)))
  | .complexType _, nd =>
    nd.value c!"mixed" ≠ some c!"true" ∧ nd.count c!"annotation" ≤ 1 ∧
    nd.count c!"simpleContent" + nd.count c!"complexContent" + nd.count c!"sequence" + nd.count c!"all" + nd.count c!"choice" ≤ 1 ∧
    (nd.count c!"simpleContent" + nd.count c!"complexContent" = 1 → nd.count c!"attribute" = 0) ∧
    ∀ c ∈ nd.xsdKids, c.name = c!"sequence" ∨ c.name = c!"all" → MinOK c ∧ MaxOK c
  | .simpleType _, nd =>
    nd.count c!"annotation" ≤ 1 ∧ nd.count c!"restriction" = 1 ∧
    ∀ c ∈ nd.xsdKids, c.name = c!"restriction" → ∃ v, c.value c!"base" = some v ∧ Builtin e v
  | .restriction, nd => ∀ f ∈ nd.xsdKids, FacetOK x f
  | .simpleContent, nd =>
    nd.count c!"extension" = 1 ∧ ∀ c ∈ nd.xsdKids, ∃ v, c.value c!"base" = some v ∧ Resolves e v
  | .complexContent, nd =>
    nd.count c!"extension" = 1 ∧ ∀ c ∈ nd.xsdKids, ∃ v, c.value c!"base" = some v ∧ OwnType e v
  | .simpleExtension, _ => True
  | .complexExtension, nd => nd.count c!"sequence" ≤ 1 ∧ ∀ c ∈ nd.xsdKids, c.name = c!"sequence" → MinOK c
  | .sequence _, nd =>
    ∀ c ∈ nd.xsdKids, (c.name = c!"choice" → MinOK c ∧ MaxOK c) ∧ (c.name = c!"sequence" → MinOK c ∧ DocsOK e c)
  | .choice _, nd => ∀ c ∈ nd.xsdKids, c.name = c!"sequence" → MinOK c ∧ MaxOK c ∧ DocsOK e c
  | .attribute, nd =>
    nd.value c!"name" ≠ none ∧ nd.count c!"annotation" ≤ 1 ∧ nd.count c!"simpleType" ≤ 1 ∧
    (nd.count c!"simpleType" = 0 → ∃ v, nd.value c!"type" = some v ∧ Resolves e v) ∧
    nd.value c!"use" ∈ [none, some c!"optional", some c!"required", some c!"prohibited"] ∧
    (nd.value c!"use" = some c!"required" → nd.value c!"default" = none)
  | .annotation, nd => HasText nd

/-- Every node that is interpreted below a node is supported. -/
def Legal (x : Ext) (e : Env) (k : Kind) (nd : Nd) : Prop :=
  ∀ k' c, Within k nd k' c → AttrsOK e k' c ∧ ChildrenOK k' c ∧ Filled x e k' c

/-- The environment of a document, from the declarations on its root element. -/
def docEnv (root : ElemInfo) : Env where
  defaultNs := (root.nss.find? (fun p => p.1 = none)).map Prod.snd
  docNss := root.nss.filterMap (fun p => p.1.map (fun q => (q, p.2)))
  target := .none
  isQualified := false

/-- A file that is supported: a document with the root `schema` in which each XSD child of the root is an include or import of
such a file, or a supported definition with a name. Being inductive, files that include each other are not supported. -/
inductive LegalFile (x : Ext) (F : Files) : Str → Prop where
  | mk {path d} (hr : F.read path = some (.doc d)) (hn : d.root.1.name = ⟨c!"schema", some nsXsd⟩)
      (hi : ∀ c ∈ (Nd.of d.root).xsdKids, c.name = c!"include" ∨ c.name = c!"import" → c.value c!"schemaLocation" ≠ none)
      (hf : ∀ c l, c ∈ (Nd.of d.root).xsdKids → c.name = c!"include" ∨ c.name = c!"import" →
        c.value c!"schemaLocation" = some l → LegalFile x F (F.push (F.parent path) l))
      (hd : ∀ c ∈ (Nd.of d.root).xsdKids, ¬ (c.name = c!"include" ∨ c.name = c!"import") →
        c.value c!"name" ≠ none ∧ ∃ k, topKind c.name = some k ∧ Legal x (docEnv d.root.1) k c) : LegalFile x F path

end Xsd
