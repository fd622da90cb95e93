import Verif.Lemmas.Gen
import Verif.Spec.Queue
/-!
# Specification: documents that differ only where nothing is read

`ReadsText S n`: the type defined by `n` takes its value (or a part of it) from the text of its element. Elements
that are not read as text may contain any white space, comments and processing instructions.
-/
namespace Xsd

mutual
/-- The content takes its value from the text of the element. -/
inductive ContentReads (S : SchemaContext) : LeafContent → Prop where
  | literal {c : LeafContent} {t : LiteralType} (h : Means S c (.literal t)) : ContentReads S c
  | fixed {c : LeafContent} {s : Str} (h : Means S c (.fixed s)) : ContentReads S c
  | named {c : LeafContent} {n : Name} (h : Means S c (.named n)) (hn : ReadsText S n) : ContentReads S c
/-- The type takes its value, or a part of it, from the text of the element. -/
inductive ReadsText (S : SchemaContext) : Name → Prop where
  | leaf {n : Name} {d : LeafDef} (h : S.get n = some (.leaf d)) (hc : ContentReads S d.content) : ReadsText S n
  | enum {n : Name} {ns : List Name} (h : S.get n = some (.enum ns)) : ReadsText S n
  | content {n ln : Name} {d : ElementDef} {ld : LeafDef} (h : S.get n = some (.element d))
      (hd : d.content = some (.leaf ln ld)) (hc : ContentReads S ld.content) : ReadsText S n
  | leaves {n : Name} {d : ElementDef} {ls : List Leaf} {l : Leaf} (h : S.get n = some (.element d))
      (hd : d.content = some (.leaves ls)) (hl : l ∈ ls) (hv : l.isVirtual = true)
      (hc : ContentReads S l.definition.content) : ReadsText S n
  | choice {n : Name} {vs : List Leaf} {b : Bool} {dd : Option Str} {l : Leaf}
      (h : S.get n = some (.choice vs b dd)) (hl : l ∈ vs) (hv : l.isVirtual = true)
      (hc : ContentReads S l.definition.content) : ReadsText S n
end

/-- No child element with this name is read as text. -/
def StructuredName (S : SchemaContext) (q : QName) : Prop :=
  ∀ p ∈ S.elements, ∀ l ∈ p.2.leaves, l.isVirtual = false → S.expanded l.name = .ok q →
    ¬ ContentReads S l.definition.content

/-- The text of `e` and `e'`: the same text if `e` has any; if `strict`, also the same error. -/
def TextRel (strict : Bool) (e e' : Elem) : Prop :=
  (∀ s, Queue.textVal e = .ok s → Queue.textVal e' = .ok s) ∧
  (strict = true → ∀ er, Queue.textVal e = .error er → Queue.textVal e' = .error er)

/-- The attributes declared by a definition. -/
def Root.attrs : Root → List Attribute
  | .element d => d.attributes
  | _ => []

/-- Same name, and the same value (or absence) of every attribute declared anywhere in the schema. -/
def SameTag (S : SchemaContext) (e e' : Elem) : Prop :=
  e'.1.name = e.1.name ∧
  ∀ p ∈ S.elements, ∀ a ∈ p.2.attrs, attrOf e'.1 a.name.name = attrOf e.1 a.name.name

/-- Some definition of the schema declares a child element with this name. -/
def Declares (S : SchemaContext) (q : QName) : Prop :=
  ∃ p ∈ S.elements, ∃ l ∈ p.2.leaves, l.isVirtual = false ∧ S.expanded l.name = .ok q

mutual
/-- The same element up to undeclared attributes, non-element nodes in places that are not read, and trailing
child elements with undeclared names. -/
inductive SameElem (S : SchemaContext) (strict : Bool) : Elem → Elem → Prop where
  | mk {e e' : Elem} (ht : SameTag S e e') (hx : TextRel strict e e' ∨ StructuredName S e.1.name)
      (hk : SameKids S strict (elemKids e.2) (elemKids e'.2)) : SameElem S strict e e'
/-- The same child elements, up to trailing undeclared ones. -/
inductive SameKids (S : SchemaContext) (strict : Bool) : List Elem → List Elem → Prop where
  | junk {es' : List Elem} (h : ∀ e ∈ es', ¬ Declares S e.1.name) : SameKids S strict [] es'
  | cons {e e' : Elem} {es es' : List Elem} (h : SameElem S strict e e') (hs : SameKids S strict es es') :
      SameKids S strict (e :: es) (e' :: es')
end

/-- The same document, for a reader of the type `n`. -/
def SameDoc (S : SchemaContext) (strict : Bool) (n : Name) (e e' : Elem) : Prop :=
  SameTag S e e' ∧ (TextRel strict e e' ∨ ¬ ReadsText S n) ∧ SameKids S strict (elemKids e.2) (elemKids e'.2)

end Xsd
