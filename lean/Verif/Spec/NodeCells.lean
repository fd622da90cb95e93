import Verif.Model.NodeRs
/-!
# Specification: what the helpers for schema nodes keep track of
-/
namespace Xsd.NodeRs

/-- The attribute is the last one with its local name, which is `n`. -/
def LastOf (as : List XAttr) (n : Str) (a : XAttr) : Prop := ∃ l r, as = l ++ a :: r ∧ a.loc = n ∧ ∀ b ∈ r, b.loc ≠ n

/-- Children are taken from a list by their names, each time the first one that is left: what is returned, and what is left. -/
inductive Takes : List Elem → List QName → List (Option Elem) → List Elem → Prop where
  | done (l) : Takes l [] [] l
  | hit {l r : List Elem} {e : Elem} {q qs rs rest} (hq : e.1.name = q) (hl : ∀ f ∈ l, f.1.name ≠ q) (h : Takes (l ++ r) qs rs rest) :
      Takes (l ++ e :: r) (q :: qs) (some e :: rs) rest
  | miss {l : List Elem} {q qs rs rest} (hl : ∀ f ∈ l, f.1.name ≠ q) (h : Takes l qs rs rest) : Takes l (q :: qs) (none :: rs) rest

/-- The element meets the conditions of a filter: name, namespace, and the value of an attribute without namespace. -/
structure Meets (f : ChildrenFilter) (e : Elem) : Prop where
  name : ∀ n, f.elementName = some n → e.1.name.loc = n
  ns : ∀ u, f.elementNs = some u → e.1.name.ns = some u
  attr : ∀ n v, f.attributeName = some n → f.attributeValue = some v →
    ∃ l a r, e.1.attrs = l ++ a :: r ∧ a.loc = n ∧ a.ns = none ∧ a.value = v ∧ ∀ b ∈ l, ¬ (b.loc = n ∧ b.ns = none)

/-- An error of the helpers and the error in the model of the parser that stands for it. -/
inductive SameErr : NodeError → XErr → Prop where
  | missingElement (n ns s) : SameErr (.missingElement n ns s) (.missingChild n s)
  | missingAttribute (n e s) : SameErr (.missingAttribute n e s) (.missingAttribute n e s)
  | textExpected (n s) : SameErr (.textExpected n s) (.textExpected n s)
  | unsupportedAttribute (n e s) : SameErr (.unsupportedAttribute n e s) (.unsupportedAttribute n e s)
  | unsupportedElement (n p s) : SameErr (.unsupportedElement n p s) (.unsupportedChild n p s)

/-- The same outcome, up to how values and errors are represented. -/
inductive SameRes {α β : Type} (f : α → β) : Res NodeError α → Res XErr β → Prop where
  | ok (a) : SameRes f (.ok a) (.ok (f a))
  | err {e e'} (h : SameErr e e') : SameRes f (.err e) (.err e')

end Xsd.NodeRs
