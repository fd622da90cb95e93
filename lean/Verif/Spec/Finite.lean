import Verif.Spec.Det
import Verif.Spec.Repr
/-!
# Specification: schemas whose types are finite
-/
namespace Xsd

/-- A value of type `n` contains one of type `m` that is read from the same element: the base of a derived type, the type that a simple
type is made from, or a group. -/
inductive Contains (S : SchemaContext) : Name → Name → Prop where
  | simple {n m : Name} {d : LeafDef} (h : S.get n = some (.leaf d)) (hm : Means S d.content (.named m)) : Contains S n m
  | base {n m f : Name} {e : ElementDef} {d : LeafDef} (h : S.get n = some (.element e)) (hc : e.content = some (.leaf f d))
      (hm : Means S d.content (.named m)) : Contains S n m
  | group {n m : Name} {r : Root} {l : Leaf} (h : S.get n = some r) (hl : l ∈ r.leaves) (hv : l.isVirtual = true)
      (hm : Means S l.definition.content (.named m)) : Contains S n m

/-- No type contains itself, directly or not. (That a type contains others endlessly is not possible otherwise, for there are finitely many.) -/
def FiniteTypes (S : SchemaContext) : Prop := WellFounded (fun m n => Contains S n m)

/-- What is used as a group is a group, and can be called by its name. -/
def GroupsAreGroups (x : Ext) (S : SchemaContext) : Prop := ∀ n r, S.get n = some r → ∀ l ∈ r.leaves, l.isVirtual = true →
  ∃ m, l.definition.content = .named m ∧ isGroup S m = true ∧ pascalIdent x m = typeIdent x m

/-- The group `m` can be called by its name, and so can the groups in it, in those, and so on. -/
def LookGroup (x : Ext) (S : SchemaContext) (m : Name) : Prop :=
  ∃ Γ : Name → Prop, Γ m ∧ ∀ m, Γ m → isGroup S m = true ∧ pascalIdent x m = typeIdent x m ∧
    ∀ r, S.get m = some r → ∀ l ∈ r.leaves, l.isVirtual = true → ∃ m', l.definition.content = .named m' ∧ Γ m'

/-- What readers look ahead for is a group that can be called by its name: members of a type that can be missing or repeated, and alternatives
of a choice. -/
def LooksAtGroups (x : Ext) (S : SchemaContext) : Prop := ∀ n r, S.get n = some r → ∀ l ∈ r.leaves, l.isVirtual = true →
  (l.repeats = true ∨ l.mayMiss = true ∨ ∃ vs b dd, r = .choice vs b dd) → ∃ m, l.definition.content = .named m ∧ LookGroup x S m

theorem GroupsAreGroups.look {x : Ext} {S : SchemaContext} (h : GroupsAreGroups x S) : LooksAtGroups x S := by
  intro n r hr l hl hv _
  obtain ⟨m, hm, h1, h2⟩ := h n r hr l hl hv
  exact ⟨m, hm, fun m => isGroup S m = true ∧ pascalIdent x m = typeIdent x m, ⟨h1, h2⟩,
    fun m hm => ⟨hm.1, hm.2, fun r hr l hl hv => h m r hr l hl hv⟩⟩

theorem LookGroup.out {x : Ext} {S : SchemaContext} {m : Name} (h : LookGroup x S m) :
    isGroup S m = true ∧ pascalIdent x m = typeIdent x m ∧
      ∀ r, S.get m = some r → ∀ l ∈ r.leaves, l.isVirtual = true → ∃ m', l.definition.content = .named m' ∧ LookGroup x S m' := by
  obtain ⟨Γ, hm, hΓ⟩ := h
  obtain ⟨h1, h2, h3⟩ := hΓ m hm
  refine ⟨h1, h2, fun r hr l hl hv => ?_⟩
  obtain ⟨m', h4, h5⟩ := h3 r hr l hl hv
  exact ⟨m', h4, Γ, h5, hΓ⟩

end Xsd
