import Verif.Model.Ast
/-!
# Occurrences and names of the parts of a schema, for the specifications
-/
namespace Xsd

/-- Specification: the element or group may be absent. -/
def Leaf.mayMiss (l : Leaf) : Bool := decide (l.minOccurs = 0)

/-- Specification: the element or group may occur more than once. -/
def Leaf.repeats (l : Leaf) : Bool := decide (l.maxOccurs ≠ .number 0 ∧ l.maxOccurs ≠ .number 1)

/-- Specification: the namespace URI that a namespace stands for (`none` outside: no such namespace in the table). -/
def SchemaContext.uriOf (S : SchemaContext) : Namespace → Option (Option Str)
  | .none => some none
  | .id i => (alookup S.namespaces.byId i).map (fun d => some d.uri)

/-- Specification: the expanded name of an element. -/
def SchemaContext.expanded (S : SchemaContext) (n : Name) : Res Str QName :=
  match S.uriOf n.ns with
  | some u => .ok ⟨n.name, u⟩
  | none => .panic

theorem Leaf.isOptional_eq (l : Leaf) : l.isOptional = l.mayMiss := by
  unfold Leaf.isOptional Leaf.mayMiss
  by_cases h : l.minOccurs = 0 <;> simp [h]

theorem Leaf.isVec_eq (l : Leaf) : l.isVec = l.repeats := by
  unfold Leaf.isVec Leaf.repeats
  cases l.maxOccurs with
  | unbounded => rfl
  | number n => by_cases h : n > 1 <;> simp [h] <;> omega

theorem SchemaContext.qname_eq (S : SchemaContext) (n : Name) : S.qname n = S.expanded n := by
  unfold SchemaContext.qname SchemaContext.expanded SchemaContext.uriOf Namespaces.getById
  cases n.ns with
  | none => rfl
  | id i => cases h : alookup S.namespaces.byId i <;> simp only [h] <;> rfl

end Xsd
