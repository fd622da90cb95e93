import Verif.Spec.Validity
/-!
# Specification: documents that are valid for schema files

Validity of elements against the nodes of the schema files themselves: elements, attributes, simple and complex types, anonymous
types, sequences and choices in each other, `xs:all`, references, and extensions, as in XML Schema, with these simplifications: text
beside child elements, attributes that are not declared, and facets other than enumerations are not considered; everything that the
schema files below may not have is not described. Nothing here refers to the parser, to the generated
code or to its values; only the text conversion of literals (specified in `Verif/Props/Literals.lean`) is shared.

There are two parameters. A rule `occ` for the number of occurrences, whether choices may be left empty, and the order of the members of
an `xs:all`. And whether there may be more than the schema says: with `junk`, anything may follow the declared child elements or the text of an element, or
come between the members of an `xs:all`, and attributes with a fixed value may have any value.

In the parts of validity, `e` is an element, whose attributes and text are looked at, and `es` the part of its child elements
that is to be valid: a group is about a part of the child elements, an element about all of them.
-/
namespace Xsd.Tree
open Xsd.Flat (Typ RefersTo TypeAttr LocalNs SimpleType Lexical attributeNodes)

/-- What is asked of a document: `rule p n` says that `n` occurrences are fine for the particle `p`; with `filled`, the alternative that
is taken in a choice is not empty; with `ordered`, the members of an `xs:all` with optional members are in the declared order. -/
structure Rule where
  count : Nd → Nat → Prop
  filled : Bool
  ordered : Bool

instance : CoeFun Rule (fun _ => Nd → Nat → Prop) := ⟨Rule.count⟩

/-- The number of occurrences that the schema says. -/
def Counted (p : Nd) (n : Nat) : Prop := ∃ mn mx, MinOf p mn ∧ MaxOf p mx ∧ mn ≤ n ∧ ∀ m, mx = .number m → n ≤ m

/-- What is left of that without counting: something that is not repeated occurs at most once, and once if it has to. -/
def Uncounted (p : Nd) (n : Nat) : Prop :=
  ∀ mn mx, MinOf p mn → MaxOf p mx → (mx = .number 0 ∨ mx = .number 1) → n ≤ 1 ∧ (mn ≠ 0 → n = 1)

/-- Validity as in XML Schema. -/
def Occurs : Rule := ⟨Counted, false, false⟩

/-- The same where no choice is left empty, and the members of an `xs:all` with optional members are in the declared order. -/
def OccursTidy : Rule := ⟨Counted, true, true⟩

/-- Validity up to the number of repetitions; with `true`, where no choice is left empty. -/
def Loosely (filled : Bool) : Rule := ⟨Uncounted, filled, false⟩

/-- The particle has to occur. -/
def Required (p : Nd) : Prop := ∃ m, MinOf p m ∧ m ≠ 0

/-- What a complex type may have besides attributes and annotations. -/
def contentNames : List Str := [c!"simpleContent", c!"complexContent", c!"sequence", c!"all", c!"choice"]

/-- The type that an extension extends. -/
inductive BaseAttr (d : XDoc) (nd : Nd) : Typ → Prop where
  | builtin {v t} (hv : nd.value c!"base" = some v) (h : Flat.Builtin d v t) : BaseAttr d nd (.builtin t)
  | own {v q} (hv : nd.value c!"base" = some v) (h : RefersTo d.root.1 v q) (hq : q.ns ≠ some nsXsd) : BaseAttr d nd (.own q)

section
variable (x : Ext) (F : Files) (path : Str) (junk : Bool)

/-- The top-level elements and types of the files that are read, with their names, which are in the target namespaces of their
files. -/
inductive Top : QName → XDoc → Nd → Prop where
  | mk {p d c n} (hr : Reads F path p d) (hc : c ∈ (Nd.of d.root).xsdKids) (hk : (topKind c.name).isSome = true)
      (hn : c.value c!"name" = some n) : Top ⟨n, targetOf d⟩ d c

/-- A text that is valid for a `simpleType` node. -/
inductive SimpleValue (d : XDoc) (nd : Nd) (s : Str) : Prop where
  | text {t} (h : SimpleType d nd (.text t)) (hs : Lexical x t s) : SimpleValue d nd s
  | enumeration {vs} (h : SimpleType d nd (.enumeration vs)) (hs : s ∈ vs) : SimpleValue d nd s

/-- An attribute value that is valid for a type. -/
inductive TypValue : Typ → Str → Prop where
  | builtin {t s} (h : Lexical x t s) : TypValue (.builtin t) s
  | fixed {f s} (hj : junk = false → s = f) : TypValue (.fixed f) s
  | own {q d c s} (ht : Top F path q d c) (hn : c.name = c!"simpleType") (h : SimpleValue x d c s) : TypValue (.own q) s

/-- An attribute value that is valid for an `attribute` node, with a type or an anonymous type. -/
inductive AttrValue (d : XDoc) (nd : Nd) (s : Str) : Prop where
  | typed {ty} (hs : ∀ c ∈ nd.xsdKids, c.name ≠ c!"simpleType") (ht : TypeAttr d nd ty) (h : TypValue x F path junk ty s) :
      AttrValue d nd s
  | simple {c} (hc : c ∈ nd.xsdKids) (hn : c.name = c!"simpleType") (h : SimpleValue x d c s) : AttrValue d nd s

/-- The attribute is there and valid, or is missing and not required. -/
inductive ValidAttr (d : XDoc) (nd : Nd) (e : ElemInfo) : Prop where
  | prohibited (hu : nd.value c!"use" = some c!"prohibited") : ValidAttr d nd e
  | present {n s} (hn : nd.value c!"name" = some n) (h : attrOf e n = some s) (hv : AttrValue x F path junk d nd s) : ValidAttr d nd e
  | missing {n} (hn : nd.value c!"name" = some n) (h : attrOf e n = none) (hr : nd.value c!"use" ≠ some c!"required") : ValidAttr d nd e

variable (occ : Rule)

mutual
/-- Valid for a type. -/
inductive VTyp : Typ → Elem → List Elem → Prop where
  | builtin {t e s} (ht : Flat.HasText junk e s) (h : Lexical x t s) : VTyp (.builtin t) e []
  | fixed {s e} (ht : Flat.HasText junk e s) : VTyp (.fixed s) e []
  | own {q d c e es} (ht : Top F path q d c) (hc : c.name ≠ c!"element") (h : VDefn d c e es) : VTyp (.own q) e es
/-- Valid for a node that is a type or declares an element: what it says about the element, not its name. -/
inductive VDefn : XDoc → Nd → Elem → List Elem → Prop where
  | simple {d nd e s} (hn : nd.name = c!"simpleType") (ht : Flat.HasText junk e s) (h : SimpleValue x d nd s) : VDefn d nd e []
  | complex {d nd e es} (hn : nd.name = c!"complexType") (h : VComplex d nd e es) : VDefn d nd e es
  | typed {d nd ty e es} (hn : nd.name = c!"element") (ht : TypeAttr d nd ty) (h : VTyp ty e es) : VDefn d nd e es
  | inline {d nd c e es} (hn : nd.name = c!"element") (ht : nd.value c!"type" = none) (hc : c ∈ nd.xsdKids)
      (hcn : c.name = c!"complexType" ∨ c.name = c!"simpleType") (h : VDefn d c e es) : VDefn d nd e es
  | any {d nd e s} (hn : nd.name = c!"element") (ht : nd.value c!"type" = none)
      (hk : ∀ c ∈ nd.xsdKids, c.name ≠ c!"simpleType" ∧ c.name ≠ c!"complexType") (hs : Flat.HasText junk e s) : VDefn d nd e []
/-- Valid for a `complexType` node. -/
inductive VComplex : XDoc → Nd → Elem → List Elem → Prop where
  | empty {d nd e} (hk : ∀ c ∈ nd.xsdKids, c.name ∉ contentNames) (ha : ∀ a ∈ attributeNodes nd, ValidAttr x F path junk d a e.1) :
      VComplex d nd e []
  | group {d nd c e es} (hc : c ∈ nd.xsdKids) (hn : c.name = c!"sequence" ∨ c.name = c!"choice")
      (ha : ∀ a ∈ attributeNodes nd, ValidAttr x F path junk d a e.1) (h : VOcc d c es) : VComplex d nd e es
  | all {d nd c e es js es'} (hc : c ∈ nd.xsdKids) (hn : c.name = c!"all") (ho : occ c 1)
      (ha : ∀ a ∈ attributeNodes nd, ValidAttr x F path junk d a e.1) (h : VSeq d c.particles es) (hj : junk = false → js = [])
      (hp : (es ++ js).Perm es') (ht : occ.ordered = true → (∀ p ∈ c.particles, Required p) ∨ es' = es ++ js) : VComplex d nd e es'
  | simpleContent {d nd c r ty e es} (hc : c ∈ nd.xsdKids) (hn : c.name = c!"simpleContent") (hr : r ∈ c.xsdKids)
      (hrn : r.name = c!"extension") (hb : BaseAttr d r ty) (ha : ∀ a ∈ attributeNodes r, ValidAttr x F path junk d a e.1)
      (h : VTyp ty e es) : VComplex d nd e es
  | complexContent {d nd c r ty e es} (hc : c ∈ nd.xsdKids) (hn : c.name = c!"complexContent") (hr : r ∈ c.xsdKids)
      (hrn : r.name = c!"extension") (hb : BaseAttr d r ty) (ha : ∀ a ∈ attributeNodes r, ValidAttr x F path junk d a e.1)
      (hg : ∀ g ∈ r.xsdKids, g.name ∉ contentNames) (h : VTyp ty e es) : VComplex d nd e es
  | extension {d nd c r g ty e es es'} (hc : c ∈ nd.xsdKids) (hn : c.name = c!"complexContent") (hr : r ∈ c.xsdKids)
      (hrn : r.name = c!"extension") (hb : BaseAttr d r ty) (ha : ∀ a ∈ attributeNodes r, ValidAttr x F path junk d a e.1)
      (hg : g ∈ r.xsdKids) (hgn : g.name = c!"sequence") (h : VTyp ty e es) (h' : VOcc d g es') : VComplex d nd e (es ++ es')
/-- One occurrence of a particle. -/
inductive VOne : XDoc → Nd → List Elem → Prop where
  | ref {d p v q d' c e es js} (hn : p.name = c!"element") (hr : p.value c!"ref" = some v) (h : RefersTo d.root.1 v q)
      (hq : q.ns ≠ some nsXsd) (ht : Top F path q d' c) (hc : c.name = c!"element") (he : e.1.name = q)
      (hk : elemKids e.2 = es ++ js) (hj : junk = false → js = []) (hv : VDefn d' c e es) : VOne d p [e]
  | element {d p n ns e es js} (hn : p.name = c!"element") (hr : p.value c!"ref" = none) (hna : p.value c!"name" = some n)
      (hns : LocalNs d ns) (he : e.1.name = ⟨n, ns⟩) (hk : elemKids e.2 = es ++ js) (hj : junk = false → js = [])
      (hv : VDefn d p e es) : VOne d p [e]
  | sequence {d p es} (hn : p.name = c!"sequence") (h : VSeq d p.particles es) : VOne d p es
  | choice {d p c es} (hn : p.name = c!"choice") (hc : c ∈ p.particles) (h : VOcc d c es)
      (hf : occ.filled = true → es ≠ []) : VOne d p es
/-- Particles after each other. -/
inductive VSeq : XDoc → List Nd → List Elem → Prop where
  | nil {d} : VSeq d [] []
  | cons {d p ps es es'} (h : VOcc d p es) (hs : VSeq d ps es') : VSeq d (p :: ps) (es ++ es')
/-- A number of occurrences of a particle. -/
inductive VMany : XDoc → Nd → Nat → List Elem → Prop where
  | zero {d p} : VMany d p 0 []
  | succ {d p n es es'} (h : VOne d p es) (hs : VMany d p n es') : VMany d p (n + 1) (es ++ es')
/-- The occurrences of a particle. -/
inductive VOcc : XDoc → Nd → List Elem → Prop where
  | mk {d p n es} (h : VMany d p n es) (ho : occ p n) : VOcc d p es
end

/-- A valid document for a top-level element or type: the root element has its name, and is valid. -/
inductive ValidDoc (q : QName) (e : Elem) : Prop where
  | mk {d c es js} (ht : Top F path q d c) (hn : e.1.name = q) (hk : elemKids e.2 = es ++ js) (hj : junk = false → js = [])
      (h : VDefn x F path junk occ d c e es) : ValidDoc q e

end

/-! ## The schema files -/

/-- The particle is not repeated. -/
def Single (p : Nd) : Prop := ∃ mx, MaxOf p mx ∧ (mx = .number 0 ∨ mx = .number 1)

/-- The particle occurs exactly once. -/
def Once (p : Nd) : Prop := MinOf p 1 ∧ Single p

/-- The name of the elements that an `element` node in a group declares or refers to. -/
inductive ElementName (d : XDoc) (p : Nd) : QName → Prop where
  | ref {v q} (hr : p.value c!"ref" = some v) (h : RefersTo d.root.1 v q) : ElementName d p q
  | name {n ns} (hr : p.value c!"ref" = none) (hn : p.value c!"name" = some n) (hns : LocalNs d ns) : ElementName d p ⟨n, ns⟩

/-- The type has an `xs:all`, or the type that it extends. -/
inductive AnyOrder (F : Files) (path : Str) : XDoc → Nd → Prop where
  | all {d nd c} (hc : c ∈ nd.xsdKids) (hn : c.name = c!"all") : AnyOrder F path d nd
  | base {d nd c r v q d' b} (hc : c ∈ nd.xsdKids) (hr : r ∈ c.xsdKids) (hv : r.value c!"base" = some v) (h : RefersTo d.root.1 v q)
      (ht : Top F path q d' b) (hb : AnyOrder F path d' b) : AnyOrder F path d nd

/-- What is required of a node. -/
structure NodeOK (F : Files) (path : Str) (d : XDoc) (nd : Nd) : Prop where
  /-- an `xs:all` occurs once, and its members are elements with different names that are not repeated -/
  all : nd.name = c!"all" → Once nd ∧ (∀ p ∈ nd.particles, p.name = c!"element" ∧ Single p) ∧
    nd.particles.Pairwise (fun a b => ∀ q, ElementName d a q → ¬ ElementName d b q)
  /-- it is not followed by other groups: a type with an `xs:all` is only extended with attributes -/
  last : (∃ g ∈ nd.xsdKids, g.name = c!"sequence") → ∀ v q, nd.value c!"base" = some v → RefersTo d.root.1 v q →
    ∀ d' b, Top F path q d' b → ¬ AnyOrder F path d' b
  /-- local elements are qualified or not as the document says -/
  form : nd.name = c!"element" → nd.value c!"form" = none
  /-- occurrences and references are not attributes in a namespace -/
  occurs : ∀ a ∈ nd.info.attrs, a.loc = c!"minOccurs" ∨ a.loc = c!"maxOccurs" ∨ a.loc = c!"ref" → a.ns = none
  /-- the types that are referred to are there; for attributes, they are string types or enumerations -/
  type : ∀ v q, nd.value c!"type" = some v → RefersTo d.root.1 v q → q.ns ≠ some nsXsd → ∃ d' c, Top F path q d' c ∧
    c.name ≠ c!"element" ∧ (nd.name = c!"attribute" → c.name = c!"simpleType" ∧ ∀ t, SimpleType d' c (.text t) → t.prim = .string)
  /-- so are the elements -/
  ref : ∀ v q, nd.value c!"ref" = some v → RefersTo d.root.1 v q → q.ns ≠ some nsXsd → ∃ d' c, Top F path q d' c ∧ c.name = c!"element"
  /-- and the types that are extended -/
  base : ∀ v q, nd.value c!"base" = some v → RefersTo d.root.1 v q → q.ns ≠ some nsXsd → ∃ d' c, Top F path q d' c ∧ c.name ≠ c!"element"
  /-- groups in choices are not repeated -/
  choice : nd.name = c!"choice" → ∀ c ∈ nd.particles, c.name ≠ c!"element" → MaxOf c (.number 0) ∨ MaxOf c (.number 1)

/-- What is required of a node and of those below. -/
inductive TreeOK (F : Files) (path : Str) (d : XDoc) : Nd → Prop where
  | mk {nd} (h : NodeOK F path d nd) (hk : ∀ c ∈ nd.xsdKids, TreeOK F path d c) : TreeOK F path d nd

/-- What is required of the files. -/
structure TreeFiles (F : Files) (path : Str) : Prop where
  /-- in every file, no prefix is declared twice, and the default namespace, if there is one, is that of XML Schema -/
  files : ∀ p d, Reads F path p d → (d.root.1.nss.map Prod.fst).Nodup ∧ ∀ u, (none, u) ∈ d.root.1.nss → u = nsXsd
  /-- the nodes are as above -/
  nodes : ∀ p d, Reads F path p d → ∀ c ∈ (Nd.of d.root).xsdKids, TreeOK F path d c

/-! ## Choices that cannot be empty, and no optional members of `xs:all` -/

/-- The particle cannot be empty. -/
inductive Solid : Nd → Prop where
  | element {p m} (hn : p.name = c!"element") (hm : MinOf p m) (h : m ≠ 0) : Solid p
  | sequence {p m c} (hn : p.name = c!"sequence") (hm : MinOf p m) (h : m ≠ 0) (hc : c ∈ p.particles) (hs : Solid c) : Solid p
  | choice {p m} (hn : p.name = c!"choice") (hm : MinOf p m) (h : m ≠ 0) (hs : ∀ c ∈ p.particles, Solid c) : Solid p

/-- No choice in the node or below can be empty, and no member of an `xs:all` is optional. -/
inductive SolidTree : Nd → Prop where
  | mk {nd} (h : nd.name = c!"choice" → ∀ c ∈ nd.particles, Solid c) (ha : nd.name = c!"all" → ∀ c ∈ nd.particles, Required c) (hk : ∀ c ∈ nd.xsdKids, SolidTree c) : SolidTree nd

/-- The same for files. -/
def SolidFiles (F : Files) (path : Str) : Prop := ∀ p d, Reads F path p d → ∀ c ∈ (Nd.of d.root).xsdKids, SolidTree c

/-! ## The number of types

Each of these nodes becomes a type of the schema: top-level elements and types, anonymous types of local elements, enumerations in
attributes, choices, sequences in other groups and in extensions, and sequences in complex types that do not occur exactly once. -/

/-- The group occurs exactly once. -/
def occursOnce (c : Nd) : Bool :=
  match parseMinOccurs (c.attr c!"minOccurs"), parseMaxOccurs (c.attr c!"maxOccurs") with
  | .ok 1, .ok mx => !mx.isVec
  | _, _ => false

/-- The attribute has an anonymous type with enumeration values. -/
def enumerates (c : Nd) : Bool :=
  c.xsdKids.any (fun t => t.name = c!"simpleType" && t.xsdKids.any (fun r => r.name = c!"restriction" &&
    r.xsdKids.any (fun f => f.name = c!"enumeration")))

/-- 1 if the child `c` of the node `nd` becomes a type. -/
def ownType (nd c : Nd) : Nat :=
  if c.name = c!"choice" then 1
  else if c.name = c!"sequence" ∨ c.name = c!"all" then (if nd.name = c!"complexType" ∧ occursOnce c = true then 0 else 1)
  else if c.name = c!"element" then
    (if c.value c!"ref" = none ∧ c.value c!"type" = none ∧ c.xsdKids.any (fun k => k.name = c!"complexType" || k.name = c!"simpleType") then 1
     else 0)
  else if c.name = c!"attribute" then (if enumerates c then 1 else 0)
  else 0

/-- The children of the node are declarations or groups. -/
def holds (nd : Nd) : Bool :=
  decide (nd.name ∈ c!"complexType" :: c!"extension" :: contentNames) ||
  (decide (nd.name = c!"element") && (nd.value c!"ref").isNone && (nd.value c!"type").isNone)

/-- The number of nodes below a node that become types, to a depth. -/
def typesBelow : Nat → Nd → Nat
  | 0, _ => 0
  | k + 1, nd => if holds nd then (nd.xsdKids.map (fun c => ownType nd c + typesBelow k c)).sum else 0

/-- The number of nodes that become types in a file and in those it includes or imports, as often as it does, to a depth. -/
def typesOf (F : Files) : Nat → Str → Nat
  | 0, _ => 0
  | k + 1, path =>
    match F.read path with
    | some (.doc d) => ((Nd.of d.root).xsdKids.map (fun c =>
        if c.name = c!"include" ∨ c.name = c!"import" then
          match c.value c!"schemaLocation" with
          | some l => typesOf F k (F.push (F.parent path) l)
          | none => 0
        else 1 + typesBelow k c)).sum
    | _ => 0

/-- The number of nodes that become types. -/
def TypeCount (F : Files) (path : Str) (n : Nat) : Prop := ∃ k, ∀ k', k ≤ k' → typesOf F k' path = n

/-- No top-level node of the files has an attribute that is called `ref` but in a namespace. -/
def NoForeignRefs (F : Files) (path : Str) : Prop :=
  ∀ p d, Reads F path p d → ∀ c ∈ (Nd.of d.root).xsdKids, ∀ a ∈ c.info.attrs, a.loc = c!"ref" → a.ns = none

end Xsd.Tree
