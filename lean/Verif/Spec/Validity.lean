import Verif.Spec.Components
import Verif.Spec.Repr
/-!
# Specification: documents that are valid for a file of records

Validity of elements against the components of `Verif/Spec/Components.lean`, as in XML Schema, with these simplifications: text
beside child elements, attributes that are not declared, and facets other than enumerations are not considered. Nothing here refers
to the parser, the generated code or its values; only the text conversion of literals (specified in
`Verif/Props/Literals.lean`) is shared.

There are two parameters. The number of occurrences: `occ l n` says that `n` elements are fine for the declaration `l`. And whether
there may be more than the schema says: with `junk`, anything may follow the declared child elements or the text of an element, and
attributes with a fixed value may have any value.
-/
namespace Xsd.Flat

/-- The number of occurrences that the schema says. -/
def Occurs (l : ElementDecl) (n : Nat) : Prop := l.min ≤ n ∧ ∀ m, l.max = .number m → n ≤ m

/-- What is left of that without counting: an element that is not repeated occurs at most once, and once if it has to. -/
def OccursLoosely (l : ElementDecl) (n : Nat) : Prop := (l.max = .number 0 ∨ l.max = .number 1) → n ≤ 1 ∧ (l.min ≠ 0 → n = 1)

/-- The text of an element without child elements. -/
inductive HasText (junk : Bool) (e : Elem) : Str → Prop where
  | none (h : e.2 = []) : HasText junk e []
  | some {s} (h : e.2 = [.text s]) : HasText junk e s
  | more {s rest} (hj : junk = true) (h : e.2 = .text s :: rest) : HasText junk e s

section
variable (x : Ext) (F : Files) (path : Str) (junk : Bool)

/-- A text in the lexical space of a built-in type. -/
def Lexical (t : LiteralType) (s : Str) : Prop := ∃ v, parsePrim x t.prim s = some v

/-- An attribute value that is valid for a type. -/
inductive ValidValue : Typ → Str → Prop where
  | builtin {t s} (h : Lexical x t s) : ValidValue (.builtin t) s
  | fixed {f s} (hj : junk = false → s = f) : ValidValue (.fixed f) s
  | text {q t s} (hc : Component F path q (.text t)) (h : Lexical x t s) : ValidValue (.own q) s
  | enumeration {q vs s} (hc : Component F path q (.enumeration vs)) (h : s ∈ vs) : ValidValue (.own q) s

/-- The attribute is there and valid, or is missing and not required. -/
inductive ValidAttribute (a : AttributeDecl) (e : ElemInfo) : Prop where
  | present {s} (h : attrOf e a.name = some s) (hv : ValidValue x F path junk a.typ s) : ValidAttribute a e
  | missing (h : attrOf e a.name = none) (hr : a.required = false) : ValidAttribute a e

variable (occ : ElementDecl → Nat → Prop)

mutual
/-- The content and attributes of an element are valid for a type. -/
inductive ValidTyp : Typ → Elem → Prop where
  | builtin {t e s} (ht : HasText junk e s) (h : Lexical x t s) : ValidTyp (.builtin t) e
  | fixed {s e} (ht : HasText junk e s) : ValidTyp (.fixed s) e
  | own {q D e} (hc : Component F path q D) (h : ValidDef D e) : ValidTyp (.own q) e
/-- The content and attributes of an element are valid for a definition. -/
inductive ValidDef : Def → Elem → Prop where
  | text {t e s} (ht : HasText junk e s) (h : Lexical x t s) : ValidDef (.text t) e
  | fixed {s e} (ht : HasText junk e s) : ValidDef (.fixed s) e
  | enumeration {vs e s} (ht : HasText junk e s) (h : s ∈ vs) : ValidDef (.enumeration vs) e
  | sameAs {q D e} (hc : Component F path q D) (h : ValidDef D e) : ValidDef (.sameAs q) e
  | record {c as e} (ha : ∀ a ∈ as, ValidAttribute x F path junk a e.1) (h : ValidContent c e) : ValidDef (.record c as) e
/-- The content of an element is valid. -/
inductive ValidContent : Content → Elem → Prop where
  | empty {e} (h : junk = false → elemKids e.2 = []) : ValidContent .empty e
  | text {t e s} (ht : HasText junk e s) (h : Lexical x t s) : ValidContent (.text t) e
  | elements {ls e es js} (he : elemKids e.2 = es ++ js) (hj : junk = false → js = []) (h : ValidSeq ls es) : ValidContent (.elements ls) e
/-- The child elements are those of a sequence. -/
inductive ValidSeq : List ElementDecl → List Elem → Prop where
  | nil : ValidSeq [] []
  | cons {l ls es es'} (hn : ∀ e ∈ es, e.1.name = l.name) (hv : ∀ e ∈ es, ValidTyp l.typ e) (ho : occ l es.length)
      (hs : ValidSeq ls es') : ValidSeq (l :: ls) (es ++ es')
end

/-- A valid document for a component: the root element has its name, and is valid. -/
def ValidDocument (q : QName) (D : Def) (e : Elem) : Prop := e.1.name = q ∧ ValidDef x F path junk occ D e

end
end Xsd.Flat
