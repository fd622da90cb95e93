import Verif.Spec.Repr
import Verif.Props.Literals
/-!
# Specification: the values of a schema type

`TV x S k n v`: `v` is a value of the type defined by `n`, of nesting depth at most `k`, read off the schema. Unlike
`TRepr` this does not mention any document: it includes values that no document represents, such as a present but
empty list in an optional field.
-/
namespace Xsd

section
variable (x : Ext) (S : SchemaContext)

/-- Values of content `c`; `V` interprets named types. -/
def VVal (V : Name → Val → Prop) (c : LeafContent) (v : Val) : Prop :=
  ∃ c', Means S c c' ∧
    match c' with
    | .literal t => PrimVal t.prim v
    | .fixed _ => v = .unit
    | .named n => V n v

/-- One value, or a list of values. -/
def VMany (V : Name → Val → Prop) (l : Leaf) (v : Val) : Prop :=
  if l.repeats then ∃ vs, v = .vec vs ∧ ∀ w ∈ vs, VVal S V l.definition.content w
  else VVal S V l.definition.content v

/-- With the `Option` around it. -/
def VOcc (V : Name → Val → Prop) (l : Leaf) (v : Val) : Prop :=
  if l.mayMiss then v = .none ∨ ∃ w, v = .some w ∧ VMany S V l w else VMany S V l v

/-- The fields of a sequence. -/
def VLeaves (V : Name → Val → Prop) : List Leaf → List (Str × Val) → Prop
  | [], fs => fs = []
  | l :: ls, fs => ∃ f v fs', fs = (f, v) :: fs' ∧ fieldIdent x l.name = .ok f ∧ VOcc S V l v ∧ VLeaves V ls fs'

/-- The content fields of an element definition. -/
def VContent (V : Name → Val → Prop) (c : Option ElementContent) (fs : List (Str × Val)) : Prop :=
  match c with
  | none => fs = []
  | some (.leaf n d) => ∃ f v, fs = [(f, v)] ∧ fieldIdent x n = .ok f ∧ VVal S V d.content v
  | some (.leaves ls) => VLeaves x S V ls fs

/-- Values of an attribute. -/
def VStr (c : LeafContent) (v : Val) : Prop :=
  ∃ c', Means S c c' ∧
    match c' with
    | .literal t => PrimVal t.prim v
    | .fixed _ => v = .unit
    | .named n => ∃ names tab vn, S.get n = some (.enum names) ∧ escapeEnumNames x names = .ok tab ∧
        vn ∈ tab.map Prod.fst ∧ v = .enumv vn

/-- The attribute fields of an element definition. -/
def VAttrs : List Attribute → List (Str × Val) → Prop
  | [], fs => fs = []
  | a :: as, fs => ∃ f v fs', fs = (f, v) :: fs' ∧ fieldIdent x a.name = .ok f ∧ VAttrs as fs' ∧
      if a.isOptional then v = .none ∨ ∃ w, v = .some w ∧ VStr x S a.content w else VStr x S a.content v

/-- The values of a definition. -/
def VRoot (V : Name → Val → Prop) (r : Root) (v : Val) : Prop :=
  match r with
  | .leaf d => ∃ w, v = .newtype w ∧ VVal S V d.content w
  | .enum names => ∃ tab vn, escapeEnumNames x names = .ok tab ∧ vn ∈ tab.map Prod.fst ∧ v = .enumv vn
  | .element d => ∃ fc fa, v = .struct (fc ++ fa) ∧ VContent x S V d.content fc ∧ VAttrs x S d.attributes fa
  | .choice vs _ _ => ∃ l ∈ vs, ∃ i w, pascalIdent x l.name = .ok i ∧ v = .variant i w ∧ VMany S V l w

/-- See the head of this file. -/
def TV : Nat → Name → Val → Prop
  | 0, _, _ => False
  | k + 1, n, v => ∃ r, S.get n = some r ∧ VRoot x S (TV k) r v

end

end Xsd
