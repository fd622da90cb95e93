import Verif.Model.Schema
/-!
# When two schema documents say the same

Two documents say the same if they differ only in the prefixes they bind to namespaces, in the order of attributes, in comments,
white space and elements of other namespaces between the elements of the schema, in attributes of other namespaces, and in where
things stand in the text.
-/
namespace Xsd
namespace Pres

/-- Related lists: of the same length, and related entry by entry. -/
inductive All2 {α β : Type} (R : α → β → Prop) : List α → List β → Prop
  | nil : All2 R [] []
  | cons {a : α} {b : β} {as : List α} {bs : List β} (h : R a b) (t : All2 R as bs) : All2 R (a :: as) (b :: bs)

/-- The name that a reference stands for, where the prefixes `nss` are declared (Namespaces in XML, section 5, and XML Schema
part 1, section 3.15.3): the namespace is that of the prefix, or the default namespace if there is no prefix. -/
inductive Means (nss : List (Option Str × Str)) : Str → QName → Prop
  | pfx {p n u : Str} (hp : ':' ∉ p) (h : (some p, u) ∈ nss) : Means nss (p ++ ':' :: n) ⟨n, some u⟩
  | dflt {n u : Str} (hn : ':' ∉ n) (h : (none, u) ∈ nss) : Means nss n ⟨n, some u⟩
  | bare {n : Str} (hn : ':' ∉ n) (h : ∀ u, (none, u) ∉ nss) : Means nss n ⟨n, none⟩

/-- Two references stand for the same name, or both for none. -/
def SameRef (nss nss' : List (Option Str × Str)) (v v' : Str) : Prop := ∀ q, Means nss v q ↔ Means nss' v' q

/-- The attributes whose values are references. -/
def refAttrs : List Str := [c!"type", c!"base", c!"ref"]

/-- Two values of the attribute `n`, if there are any. -/
def SameValue (nss nss' : List (Option Str × Str)) (n : Str) : Option Str → Option Str → Prop
  | none, none => True
  | some v, some v' => (n ∈ refAttrs → SameRef nss nss' v v') ∧ (n ∉ refAttrs → v = v')
  | _, _ => False

/-- Two start tags say the same: the names are the same, and so are the attributes without a namespace, in any order. -/
structure SameTag (i i' : ElemInfo) : Prop where
  name : i.name = i'.name
  attrs : ∀ n, SameValue i.nss i'.nss n (attrOf i n) (attrOf i' n)

/-- The child elements in the namespace of schemas. -/
def xsdElems (cs : List XNode) : List Elem := (elemKids cs).filter (fun e => e.1.name.ns = some nsXsd)

/-- The text that an element starts with. -/
def leadingText : List XNode → Option Str
  | .text s :: _ => some s
  | _ => none

/-- Two elements say the same: their start tags do, and their children in the namespace of schemas one by one; documentation has the
same text. -/
inductive SameElem : Elem → Elem → Prop
  | mk {i i' : ElemInfo} {cs cs' : List XNode} (tag : SameTag i i')
    (doc : i.name = ⟨c!"documentation", some nsXsd⟩ → leadingText cs = leadingText cs')
    (kids : All2 SameElem (xsdElems cs) (xsdElems cs')) : SameElem (i, cs) (i', cs')

/-- The attributes that schema documents may have, and that the parser looks at. -/
def schemaAttrs : List Str :=
  [c!"name", c!"type", c!"ref", c!"minOccurs", c!"maxOccurs", c!"fixed", c!"default", c!"form", c!"use", c!"mixed", c!"base",
   c!"value", c!"schemaLocation", c!"targetNamespace"]

/-- Attributes of an element: no two have the same name, as in all well-formed documents; and none of another namespace has the
local name of an attribute of schemas, or of an attribute without a namespace on the same element. -/
structure PlainTag (i : ElemInfo) : Prop where
  unique : ∀ a ∈ i.attrs, ∀ b ∈ i.attrs, a.loc = b.loc → a.ns = b.ns → a = b
  foreign : ∀ a ∈ i.attrs, a.ns ≠ none → a.loc ∉ schemaAttrs ∧ ∀ b ∈ i.attrs, b.ns = none → b.loc ≠ a.loc

/-- An element of a schema without the things that the parser misreads: the attributes of other namespaces are harmless, and
prefixes are declared only at the root, as `D`. -/
inductive PlainElem (D : List (Option Str × Str)) : Elem → Prop
  | mk {i : ElemInfo} {cs : List XNode} (tag : PlainTag i) (decls : i.nss = D) (kids : ∀ e ∈ xsdElems cs, PlainElem D e) :
    PlainElem D (i, cs)

/-- Declarations of prefixes at the root: one for each prefix, as in all well-formed documents, and the default namespace, if there is
one, is that of schemas. -/
structure PlainDecls (D : List (Option Str × Str)) : Prop where
  unique : (D.map Prod.fst).Nodup
  dflt : ∀ u, (none, u) ∈ D → u = nsXsd

/-- A document without the things that the parser misreads. -/
def PlainDoc (d : XDoc) : Prop := PlainDecls d.root.1.nss ∧ PlainElem d.root.1.nss d.root

/-- Two files say the same. -/
inductive SameFile : Option FileContent → Option FileContent → Prop
  | missing : SameFile none none
  | malformed {r c r' c' : Nat} : SameFile (some (.malformed r c)) (some (.malformed r' c'))
  | doc {d d' : XDoc} (h : SameElem d.root d'.root) : SameFile (some (.doc d)) (some (.doc d'))

/-- Two errors of the parser say the same: they are of the same kind and name the same things. They may differ in where things stand,
in how a prefix or a reference is written, and in which of several unsupported attributes is reported. -/
inductive SameXErr : XErr → XErr → Prop
  | xml : SameXErr .xml .xml
  | missingChild (n : Str) (s s' : Nat) : SameXErr (.missingChild n s) (.missingChild n s')
  | missingAttribute (n e : Str) (s s' : Nat) : SameXErr (.missingAttribute n e s) (.missingAttribute n e s')
  | textExpected (n : Str) (s s' : Nat) : SameXErr (.textExpected n s) (.textExpected n s')
  | unsupportedAttribute (n n' e : Str) (s s' : Nat) : SameXErr (.unsupportedAttribute n e s) (.unsupportedAttribute n' e s')
  | unsupportedChild (n e : Str) (s s' : Nat) : SameXErr (.unsupportedChild n e s) (.unsupportedChild n e s')
  | unsupportedElement (n : Str) (s s' : Nat) : SameXErr (.unsupportedElement n s) (.unsupportedElement n s')
  | unsupportedValue (n v e : Str) (s s' : Nat) : SameXErr (.unsupportedAttributeValue n v e s) (.unsupportedAttributeValue n v e s')
  | unsupportedRef (n v v' e : Str) (s s' : Nat) (h : n ∈ refAttrs) :
    SameXErr (.unsupportedAttributeValue n v e s) (.unsupportedAttributeValue n v' e s')
  | unexpectedAttribute (n e : Str) (s s' : Nat) : SameXErr (.unexpectedAttribute n e s) (.unexpectedAttribute n e s')
  | missingElement (n e : Str) (s s' : Nat) : SameXErr (.missingElement n e s) (.missingElement n e s')
  | missingNamespace (p p' : Str) (s s' : Nat) : SameXErr (.missingNamespace p s) (.missingNamespace p' s')
  | parseInt (s s' : Nat) : SameXErr (.parseInt s) (.parseInt s')
  | parseDecimal (s s' : Nat) : SameXErr (.parseDecimal s) (.parseDecimal s')
  | unsupportedType (n : Str) (s s' : Nat) : SameXErr (.unsupportedType n s) (.unsupportedType n s')

/-- Two errors of the reader of files say the same: they are of the same kind, in the same file. -/
inductive SameErr : SErr → SErr → Prop
  | xsd {e e' : XErr} (h : SameXErr e e') (file : Str) (r c r' c' : Nat) : SameErr (.xsd e file r c) (.xsd e' file r' c')
  | openFile (file : Str) : SameErr (.openFile file) (.openFile file)
  | notFound (n : Str) : SameErr (.notFound n) (.notFound n)

/-- Two outcomes: the same result, or both fail with errors that say the same, panic, or do not end. -/
inductive SameOutcome {α : Type} : Res SErr α → Res SErr α → Prop
  | ok (a : α) : SameOutcome (.ok a) (.ok a)
  | err {e e' : SErr} (h : SameErr e e') : SameOutcome (.err e) (.err e')
  | panic : SameOutcome .panic .panic
  | diverge : SameOutcome .diverge .diverge

end Pres
end Xsd
