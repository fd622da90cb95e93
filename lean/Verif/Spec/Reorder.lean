import Verif.Model.Schema
/-!
# The order of the definitions in a schema file
-/
namespace Xsd

/-- The documents have schema elements with the same name, attributes and namespaces, and children with the namespace of
XML Schema that are the same but for their order, and for how often they occur. -/
structure Reordered (d d' : XDoc) : Prop where
  info : d'.root.1 = d.root.1
  kids : ∀ c, c ∈ (Nd.of d'.root).xsdKids ↔ c ∈ (Nd.of d.root).xsdKids

/-- The document `d'` has the schema element of `d` with only the child `c`. -/
structure OnlyChild (d d' : XDoc) (c : Nd) : Prop where
  info : d'.root.1 = d.root.1
  kids : (Nd.of d'.root).xsdKids = [c]

/-- The schema `S` is what a file at the path of `d` is parsed to that has only the child `c` of `d`, with the namespaces
of `t` known already. Files that it includes are read as they are. -/
def ParsedAlone (x : Ext) (F : Files) (k : Nat) (path : Str) (d : XDoc) (t : Namespaces) (c : Nd) (S : PSchema) : Prop :=
  ∃ d', OnlyChild d d' c ∧ parseDoc x F (parseFileWith x F k) path d' t [] = .ok S

/-- No two children of `d` give different types to one name. -/
def NoClash (x : Ext) (F : Files) (k : Nat) (path : Str) (d : XDoc) (t : Namespaces) : Prop :=
  ∀ c ∈ (Nd.of d.root).xsdKids, ∀ c' ∈ (Nd.of d.root).xsdKids, ∀ S S',
    ParsedAlone x F k path d t c S → ParsedAlone x F k path d t c' S' →
    ∀ n r r', S.context.get n = some r → S'.context.get n = some r' → r = r'

/-- The schemas have the same definitions, each with the same dependencies, in some order. -/
structure SameButOrder (P P' : PSchema) : Prop where
  elements : P'.context.elements.Perm P.context.elements
  get : ∀ n, P'.context.get n = P.context.get n
  target : P'.context.target = P.context.target
  qualified : P'.context.isQualified = P.context.isQualified
  namespaces : P'.context.namespaces = P.context.namespaces
  deps : ∀ p n, n ∈ (alookup P'.deps p).getD [] ↔ n ∈ (alookup P.deps p).getD []

end Xsd
