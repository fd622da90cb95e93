import Verif.Model.Codegen
import Verif.Spec.Occurs
/-!
# Specification: which values a document represents

A declarative reading of the schema AST, independent of the generated reader and writer: `TRepr m S k n v e es`
says that `v` is a value of the type defined by `n`, represented by the attributes and text of the
element `e` and by the segment `es` of its child elements. It is a relation: it says nothing about how
a reader finds the segment. The index `k` bounds the nesting depth of types; a value is represented if it
is for some index.

Four modes, from two switches. A `strict` representation is the schema as written: child elements in the declared
order, or in any order if all are required members of an `xs:all`, and nothing else; otherwise it is what a reader may accept
besides: further child elements of a child element are ignored, and required members of an `xs:all` may be anywhere. With `ne` no optional group, repeated
group or alternative that is present is empty. `exact` has both, `lenient` none, `written` is strict only and
`tidy` is `ne` only.

Only the following parts of the implementation are shared: the AST, the mapping from schema
names to Rust identifiers (part of the API of the generated code), and the text conversion of literals
(specified on its own in `Verif/Props/Literals.lean`).
-/
namespace Xsd

/-- Interleavings: `c` consists of `a` and `b`, each in order. -/
inductive Merge {α : Type} : List α → List α → List α → Prop where
  | nil : Merge [] [] []
  | left {a : α} {as bs cs : List α} (h : Merge as bs cs) : Merge (a :: as) bs (a :: cs)
  | right {b : α} {as bs cs : List α} (h : Merge as bs cs) : Merge as (b :: bs) (b :: cs)

/-- See the head of this file. -/
structure Mode where
  strict : Bool
  ne : Bool
  deriving DecidableEq

abbrev Mode.exact : Mode := ⟨true, true⟩
abbrev Mode.written : Mode := ⟨true, false⟩
abbrev Mode.tidy : Mode := ⟨false, true⟩
abbrev Mode.lenient : Mode := ⟨false, false⟩

/-- The child elements declared by a definition. -/
def Root.leaves : Root → List Leaf
  | .leaf _ => []
  | .enum _ => []
  | .element d => match d.content with
    | some (.leaves ls) => ls
    | _ => []
  | .choice vs _ _ => vs

/-- The content of a definition that is a single value. -/
def Root.value : Root → Option LeafContent
  | .leaf d => some d.content
  | .element d => match d.content with
    | some (.leaf _ d) => some d.content
    | _ => none
  | _ => none

/-- A required member of an `xs:all`. -/
def Leaf.anywhere (l : Leaf) : Bool := l.isUnordered && !l.isVirtual && !l.repeats && !l.mayMiss

/-- A reference to a named simple type stands for the content of that type; following such references
ends in a literal type, a fixed value, or the name of something else. -/
inductive Means (S : SchemaContext) : LeafContent → LeafContent → Prop where
  | literal (t : LiteralType) : Means S (.literal t) (.literal t)
  | fixed (s : Str) : Means S (.fixed s) (.fixed s)
  | alias {n : Name} {d : LeafDef} {c : LeafContent} (h : S.get n = some (.leaf d)) (hc : Means S d.content c) :
      Means S (.named n) c
  | name {n : Name} (h : ∀ d, S.get n ≠ some (.leaf d)) : Means S (.named n) (.named n)

/-- The type has required members of an `xs:all`, itself or in its groups, or its value is of such a type. -/
inductive Loose (S : SchemaContext) : Name → Prop where
  | member {n r l} (h : S.get n = some r) (hl : l ∈ r.leaves) (ha : l.anywhere = true) : Loose S n
  | group {n r l m} (h : S.get n = some r) (hl : l ∈ r.leaves) (hv : l.isVirtual = true)
      (hm : Means S l.definition.content (.named m)) (hL : Loose S m) : Loose S n
  | value {n r c m} (h : S.get n = some r) (hc : r.value = some c) (hm : Means S c (.named m)) (hL : Loose S m) : Loose S n

/-- The same for a value. -/
def LooseVal (S : SchemaContext) (c : LeafContent) : Prop := ∃ m, Means S c (.named m) ∧ Loose S m

/-- The same for a member of a type. -/
def LooseLeaf (S : SchemaContext) (l : Leaf) : Prop :=
  l.anywhere = true ∨ l.isVirtual = true ∧ LooseVal S l.definition.content

/-- `es` consists of `es1` followed by `es2`; unless strict they may be interleaved if `loose`. -/
def Cat (loose : Prop) : Mode → List Elem → List Elem → List Elem → Prop
  | ⟨true, _⟩, es1, es2, es => es = es1 ++ es2
  | ⟨false, _⟩, es1, es2, es => Merge es1 es2 es ∧ (¬ loose → es = es1 ++ es2)

/-- Two lists of children with the same children of every name, in the same order: any reordering that does not
exchange children of the same name. -/
def SameByName (p p' : List Elem) : Prop :=
  ∀ q, p.filter (fun ch => decide (ch.1.name = q)) = p'.filter (fun ch => decide (ch.1.name = q))

/-- The child elements `es` of members `ls` are `es'`, or in another order if the members are those of an `xs:all` and all of
them are required. -/
def Arranged (ls : List Leaf) (es' es : List Elem) : Prop :=
  es = es' ∨ ((∀ l ∈ ls, l.anywhere = true) ∧ SameByName es' es)

/-- The text of an element: if strict all of its content, else its leading text. -/
def TextIs : Mode → Elem → Str → Prop
  | ⟨true, _⟩, e, s => (e.2 = [] ∧ s = []) ∨ e.2 = [.text s]
  | ⟨false, _⟩, e, s => (e.2 = [] ∧ s = []) ∨ ∃ rest, e.2 = .text s :: rest

section Repr
variable (x : Ext) (m : Mode) (S : SchemaContext)

/-- `v` is the value of content `c`; `T` interprets named types. -/
def RVal (T : Name → Val → Elem → List Elem → Prop) (c : LeafContent) (v : Val) (e : Elem) (es : List Elem) :
    Prop :=
  ∃ c', Means S c c' ∧
    match c' with
    | .literal t => ∃ s, TextIs m e s ∧ parsePrim x t.prim s = some v ∧ es = []
    | .fixed f => TextIs m e f ∧ v = .unit ∧ es = []
    | .named n => T n v e es

/-- `v` is represented by the whole of the child element `ch`; unless strict some of its child elements
may be left over. -/
def RChild (T : Name → Val → Elem → List Elem → Prop) (c : LeafContent) (v : Val) (ch : Elem) : Prop :=
  ∃ es junk, Cat (LooseVal S c) m es junk (elemKids ch.2) ∧ (m.strict = true → junk = []) ∧ RVal x m S T c v ch es

/-- One occurrence of a leaf: a virtual leaf (a group) is a segment of the same element, any other
leaf is one child element with the declared expanded name. -/
def RItem (T : Name → Val → Elem → List Elem → Prop) (l : Leaf) (v : Val) (e : Elem) (es : List Elem) :
    Prop :=
  if l.isVirtual then RVal x m S T l.definition.content v e es
  else ∃ ch, es = [ch] ∧ S.expanded l.name = .ok ch.1.name ∧ RChild x m S T l.definition.content v ch

/-- Repeated occurrences; with `ne` none of them is empty. -/
def RMany (T : Name → Val → Elem → List Elem → Prop) (l : Leaf) :
    List Val → Elem → List Elem → Prop
  | [], _, es => es = []
  | v :: vs, e, es => ∃ es1 es2, RItem x m S T l v e es1 ∧ (m.ne = true → es1 ≠ []) ∧
      RMany T l vs e es2 ∧ Cat (LooseLeaf S l) m es1 es2 es

/-- All occurrences of a leaf, with the `Vec`/`Option` around its type. `Some` of nothing is not read from
any document, but can be written. -/
def ROcc (T : Name → Val → Elem → List Elem → Prop) (l : Leaf) (v : Val) (e : Elem) (es : List Elem) :
    Prop :=
  if l.repeats then
    ∃ vs, RMany x m S T l vs e es ∧
      (if l.mayMiss then (vs = [] ∧ v = .none) ∨ ((m ≠ .written → vs ≠ []) ∧ v = .some (.vec vs)) else v = .vec vs)
  else if l.mayMiss then
    (v = .none ∧ es = []) ∨ (∃ w, v = .some w ∧ RItem x m S T l w e es ∧ (m.ne = true → es ≠ []))
  else RItem x m S T l v e es

/-- The fields of a sequence. -/
def RLeaves (T : Name → Val → Elem → List Elem → Prop) :
    List Leaf → List (Str × Val) → Elem → List Elem → Prop
  | [], fs, _, es => fs = [] ∧ es = []
  | l :: ls, fs, e, es => ∃ f v fs' es1 es2, fs = (f, v) :: fs' ∧ fieldIdent x l.name = .ok f ∧
      ROcc x m S T l v e es1 ∧ RLeaves T ls fs' e es2 ∧ Cat (LooseLeaf S l) m es1 es2 es

/-- The content fields of an element definition. -/
def RContent (T : Name → Val → Elem → List Elem → Prop) (c : Option ElementContent) (fs : List (Str × Val))
    (e : Elem) (es : List Elem) : Prop :=
  match c with
  | none => fs = [] ∧ es = []
  | some (.leaf n d) => ∃ f v, fs = [(f, v)] ∧ fieldIdent x n = .ok f ∧ RVal x m S T d.content v e es
  | some (.leaves ls) => ∃ es', RLeaves x m S T ls fs e es' ∧ Arranged ls es' es

/-- The attribute text `s` stands for the value `v`. -/
def RStr (c : LeafContent) (s : Str) (v : Val) : Prop :=
  match c with
  | .literal t => parsePrim x t.prim s = some v
  | .fixed f => v = .unit ∧ (m.strict = true → s = f)
  | .named _ => ∃ c', Means S c c' ∧
    match c' with
    | .literal t => t.prim = .string ∧ v = .str s
    | .fixed _ => False
    | .named n => ∃ names tab vn, S.get n = some (.enum names) ∧ escapeEnumNames x names = .ok tab ∧
        (vn, s) ∈ tab ∧ v = .enumv vn

/-- The attribute fields of an element definition. -/
def RAttrs : List Attribute → List (Str × Val) → Elem → Prop
  | [], fs, _ => fs = []
  | a :: as, fs, e => ∃ f v fs', fs = (f, v) :: fs' ∧ fieldIdent x a.name = .ok f ∧ RAttrs as fs' e ∧
      if a.isOptional then
        (v = .none ∧ attrOf e.1 a.name.name = none) ∨
        (∃ s w, attrOf e.1 a.name.name = some s ∧ v = .some w ∧ RStr x m S a.content s w)
      else ∃ s, attrOf e.1 a.name.name = some s ∧ RStr x m S a.content s v

/-- The payload of a choice variant. -/
def RVariant (T : Name → Val → Elem → List Elem → Prop) (l : Leaf) (v : Val) (e : Elem) (es : List Elem) :
    Prop :=
  if l.isVirtual then RItem x m S T l v e es ∧ (m.ne = true → es ≠ [])
  else if l.repeats then ∃ vs, v = .vec vs ∧ (m ≠ .written → vs ≠ []) ∧ RMany x m S T l vs e es
  else RItem x m S T l v e es

/-- The value of a definition. -/
def RRoot (T : Name → Val → Elem → List Elem → Prop) (r : Root) (v : Val) (e : Elem) (es : List Elem) :
    Prop :=
  match r with
  | .leaf d => ∃ w, v = .newtype w ∧ RVal x m S T d.content w e es
  | .enum names => ∃ tab vn s, escapeEnumNames x names = .ok tab ∧ (vn, s) ∈ tab ∧ TextIs m e s ∧
      v = .enumv vn ∧ es = []
  | .element d => ∃ fc fa, v = .struct (fc ++ fa) ∧ RContent x m S T d.content fc e es ∧
      RAttrs x m S d.attributes fa e
  | .choice vs _ _ => ∃ l ∈ vs, ∃ i w, pascalIdent x l.name = .ok i ∧ v = .variant i w ∧
      RVariant x m S T l w e es

/-- The value of a type; see the head of this file. -/
def TRepr : Nat → Name → Val → Elem → List Elem → Prop
  | 0, _, _, _, _ => False
  | k + 1, n, v, e, es => ∃ r, S.get n = some r ∧ RRoot x m S (TRepr k) r v e es

/-- The document with root element `e` represents the value `v` of the type defined by `n`. -/
def DocRepr (n : Name) (v : Val) (e : Elem) : Prop :=
  S.expanded n = .ok e.1.name ∧
    ∃ k es junk, Cat (Loose S n) m es junk (elemKids e.2) ∧ (m.strict = true → junk = []) ∧ TRepr x m S k n v e es

end Repr

end Xsd
