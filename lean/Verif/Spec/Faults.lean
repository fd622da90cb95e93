import Verif.Spec.Leads
/-!
# Specification: what an error of a generated reader says about the document

`At x S n e0 c e rest`: in reading the element `e0` as a value of the type `n`, it is the turn of the content `c`, to be read from the element `e`
when the child elements `rest` of it are not read yet. `Faults x S n e0 E`: the error `E` names something that is wrong at such a place.
Everything is defined on the schema and the document; no generated code is involved.
-/
namespace Xsd

section
variable (x : Ext) (S : SchemaContext)

/-- The next of the child elements `rest`, if there is one, cannot be the first of the member `l`. -/
def NotNext (l : Leaf) (rest : List Elem) : Prop := ∀ ch r, rest = ch :: r → ¬ LeafLeads S l ch.1.name

/-- Values of the members `ls` of a type have been read from the element `e`. Before that its child elements `rest` were not read, after
that `rest'`. A member was left out, or its repetition ended, only where the next child element could not be the first of it. -/
inductive Passed : List Leaf → Elem → List Elem → List Elem → Prop where
  | nil {e rest} : Passed [] e rest rest
  | cons {l ls e rest mid rest' k v es} (hv : ROcc x .lenient S (TRepr x .lenient S k) l v e es)
      (hc : Cat (LooseLeaf S l) .lenient es mid rest) (hs : l.repeats = true ∨ (l.mayMiss = true ∧ v = .none) → NotNext S l mid)
      (h : Passed ls e mid rest') : Passed (l :: ls) e rest rest'

/-- The same for occurrences of the member `l` that is repeated, or no occurrence at all. -/
def Again (l : Leaf) (e : Elem) (rest rest' : List Elem) : Prop :=
  ∃ k vs es, RMany x .lenient S (TRepr x .lenient S k) l vs e es ∧ Cat (LooseLeaf S l) .lenient es rest' rest ∧
    (vs ≠ [] → l.repeats = true)

/-- In reading a value of type `m` from the element `e`, with child elements `rest`, it is the turn of the member `l`, and `rest'` are not read
yet: the members before it in a sequence have been read; of a choice it is the first alternative that the next child element can start. -/
inductive Turn (m : Name) (e : Elem) (rest : List Elem) (l : Leaf) (rest' : List Elem) : Prop where
  | field {d : ElementDef} {pre post : List Leaf} {mid : List Elem} (hg : S.get m = some (.element d))
      (hd : d.content = some (.leaves (pre ++ l :: post))) (hp : Passed x S pre e rest mid) (ha : Again x S l e mid rest')
  | variant {pre post : List Leaf} {b : Bool} {dd : Option Str} (hg : S.get m = some (.choice (pre ++ l :: post) b dd))
      (hp : ∀ a ∈ pre, NotNext S a rest) (hn : ¬ NotNext S l rest) (hv : l.isVirtual = true → rest' = rest)
      (ha : Again x S l e rest rest')

/-- See the head of this file. -/
inductive At (n : Name) (e0 : Elem) : LeafContent → Elem → List Elem → Prop where
  | root : At n e0 (.named n) e0 (elemKids e0.2)
  | value {m r c e rest} (h : At n e0 (.named m) e rest) (hg : S.get m = some r) (hc : r.value = some c) : At n e0 c e rest
  | group {m e rest l rest'} (h : At n e0 (.named m) e rest) (ht : Turn x S m e rest l rest') (hv : l.isVirtual = true)
      (ho : l.repeats = true ∨ l.mayMiss = true → ¬ NotNext S l rest') : At n e0 l.definition.content e rest'
  | child {m e rest l rest' ch before after} (h : At n e0 (.named m) e rest) (ht : Turn x S m e rest l rest')
      (hv : l.isVirtual = false) (hq : S.expanded l.name = .ok ch.1.name) (hr : rest' = before ++ ch :: after)
      (hf : ∀ c ∈ before, c.1.name ≠ ch.1.name) (ho : before ≠ [] → l.anywhere = true) :
      At n e0 l.definition.content ch (elemKids ch.2)

/-- Content that is read from the text of an element. -/
def IsText (c : LeafContent) : Prop :=
  (∃ t, Means S c (.literal t)) ∨ (∃ f, Means S c (.fixed f)) ∨ ∃ m names, Means S c (.named m) ∧ S.get m = some (.enum names)

/-- A required attribute of `e` is there, and the values of those that are there can be read. -/
def AttrFine (e : Elem) (a : Attribute) : Prop :=
  (attrOf e.1 a.name.name = none ∧ a.isOptional = true) ∨ ∃ s v, attrOf e.1 a.name.name = some s ∧ RStr x .lenient S a.content s v

/-- See the head of this file. -/
inductive Faults (n : Name) (e0 : Elem) : DErr → Prop where
  /-- The first required member that is not there. -/
  | element {m e rest d pre post l rest' q} (h : At x S n e0 (.named m) e rest) (hg : S.get m = some (.element d))
      (hd : d.content = some (.leaves (pre ++ l :: post))) (hp : Passed x S pre e rest rest') (hv : l.isVirtual = false)
      (hr : l.repeats = false) (ho : l.mayMiss = false) (hq : S.expanded l.name = .ok q)
      (hm : if l.isUnordered = true then ∀ ch ∈ rest', ch.1.name ≠ q else ∀ ch r, rest' = ch :: r → ch.1.name ≠ q) :
      Faults n e0 (.missingElement q.loc q.ns)
  /-- A choice none of whose alternatives can start with the next child element. -/
  | variant {m e rest vs b dd i} (h : At x S n e0 (.named m) e rest) (hg : S.get m = some (.choice vs b dd))
      (hi : typeIdent x m = .ok i) (hm : ∀ l ∈ vs, NotNext S l rest) : Faults n e0 (.missingVariant i)
  /-- An element that should have text and starts with something else. -/
  | text {c e rest} (h : At x S n e0 c e rest) (ht : IsText S c) (he : e.2 ≠ []) (hn : ∀ s r, e.2 ≠ .text s :: r) :
      Faults n e0 (.textExpected e.1.name.loc)
  /-- A text that is not one of the type. -/
  | literal {c e rest t s} (h : At x S n e0 c e rest) (hc : Means S c (.literal t)) (hs : TextIs .lenient e s)
      (hn : parsePrim x t.prim s = none) : Faults n e0 (.parseType t.xsdName s)
  /-- A text that is not the fixed one. -/
  | fixed {c e rest f s} (h : At x S n e0 c e rest) (hc : Means S c (.fixed f)) (hs : TextIs .lenient e s) (hn : s ≠ f) :
      Faults n e0 (.fixedMismatch f s)
  /-- A text that is not one of the values. -/
  | enum {c m names e rest s} (h : At x S n e0 c e rest) (hc : Means S c (.named m)) (hg : S.get m = some (.enum names))
      (hs : TextIs .lenient e s) (hn : ∀ v ∈ names, v.name ≠ s) : Faults n e0 (.invalidVariant s)
  /-- The first required attribute that is not there. -/
  | noAttribute {m e rest d pre a post} (h : At x S n e0 (.named m) e rest) (hg : S.get m = some (.element d))
      (hd : d.attributes = pre ++ a :: post) (hp : ∀ b ∈ pre, AttrFine x S e b) (ho : a.isOptional = false)
      (hn : attrOf e.1 a.name.name = none) : Faults n e0 (.missingAttribute a.name.name)
  /-- The value of an attribute that is not one of the type. -/
  | attrLiteral {m e rest d pre a post t s} (h : At x S n e0 (.named m) e rest) (hg : S.get m = some (.element d))
      (hd : d.attributes = pre ++ a :: post) (hp : ∀ b ∈ pre, AttrFine x S e b) (hs : attrOf e.1 a.name.name = some s)
      (hc : a.content = .literal t) (hn : parsePrim x t.prim s = none) : Faults n e0 (.parseType t.xsdName s)
  /-- The value of an attribute that is not one of the values. -/
  | attrEnum {m m' e rest d pre a post names s} (h : At x S n e0 (.named m) e rest) (hg : S.get m = some (.element d))
      (hd : d.attributes = pre ++ a :: post) (hp : ∀ b ∈ pre, AttrFine x S e b) (hs : attrOf e.1 a.name.name = some s)
      (hc : Means S a.content (.named m')) (hg' : S.get m' = some (.enum names)) (hn : ∀ v ∈ names, v.name ≠ s) :
      Faults n e0 (.invalidVariant s)

end

end Xsd
