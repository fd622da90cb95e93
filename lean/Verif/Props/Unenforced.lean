import Verif.Props.Content
import Verif.Props.Reader
/-!
# Facets, attribute defaults and the numbers of occurrence bounds have no effect (C22, C29, C30)

The properties are false. What is proved instead: the generated module, and so every
result of `from_xml` and `to_xml`, is the same whatever facets, attribute defaults and documentation the schema
declares, and whatever its occurrence bounds are beyond whether something may be missing and whether it may be repeated; and,
for each of the properties, a schema and a document on which it fails (Props/ContentExamples.lean).
-/
namespace Xsd

/-- Replacement of everything in a schema that the generated code turns out not to depend on. -/
structure Decoration where
  facets : LeafDef → List Restriction
  default : Attribute → Option Str
  docs : Option Str → Option Str
  minOccurs : Leaf → Nat
  maxOccurs : Leaf → MaxOccurs
  keepsMin : ∀ l, minOccurs l = 0 ↔ l.minOccurs = 0
  keepsMax : ∀ l, (maxOccurs l = .number 0 ∨ maxOccurs l = .number 1) ↔ (l.maxOccurs = .number 0 ∨ l.maxOccurs = .number 1)

section Redecorate
variable (D : Decoration)

def LeafDef.redecorate (d : LeafDef) : LeafDef := ⟨d.content, D.facets d, D.docs d.docs⟩
def Leaf.redecorate (l : Leaf) : Leaf :=
  { l with definition := l.definition.redecorate D, minOccurs := D.minOccurs l, maxOccurs := D.maxOccurs l }
def Attribute.redecorate (a : Attribute) : Attribute := { a with default := D.default a, docs := D.docs a.docs }

def ElementContent.redecorate : ElementContent → ElementContent
  | .leaf n d => .leaf n (d.redecorate D)
  | .leaves ls => .leaves (ls.map (Leaf.redecorate D))

def ElementDef.redecorate (d : ElementDef) : ElementDef :=
  ⟨d.attributes.map (Attribute.redecorate D), d.content.map (ElementContent.redecorate D), d.isVirtual, D.docs d.docs⟩

def Root.redecorate : Root → Root
  | .leaf d => .leaf (d.redecorate D)
  | .enum ns => .enum ns
  | .element d => .element (d.redecorate D)
  | .choice vs b docs => .choice (vs.map (Leaf.redecorate D)) b (D.docs docs)

/-- The schema with other facets, attribute defaults, documentation and numbers in occurrence bounds. -/
def SchemaContext.redecorate (S : SchemaContext) : SchemaContext :=
  { S with elements := S.elements.map (fun p => (p.1, p.2.redecorate D)) }

variable (x : Ext) (S : SchemaContext)

theorem redecorate_isOptional (l : Leaf) : (l.redecorate D).isOptional = l.isOptional := by
  have h := D.keepsMin l
  rw [Bool.eq_iff_iff]
  simp only [Leaf.redecorate, Leaf.isOptional, beq_iff_eq, h]

theorem Leaf.isVec_eq_false (l : Leaf) : l.isVec = false ↔ (l.maxOccurs = .number 0 ∨ l.maxOccurs = .number 1) := by
  cases hm : l.maxOccurs with
  | unbounded => simp [Leaf.isVec, hm]
  | number k =>
    simp only [Leaf.isVec, hm, MaxOccurs.number.injEq]
    split
    · simp; omega
    · simp; omega

theorem redecorate_isVec (l : Leaf) : (l.redecorate D).isVec = l.isVec := by
  have h := D.keepsMax l
  have h1 := Leaf.isVec_eq_false l
  have h2 := Leaf.isVec_eq_false (l.redecorate D)
  rw [show (l.redecorate D).maxOccurs = D.maxOccurs l from rfl, h, ← h1] at h2
  cases hv : l.isVec <;> cases hw : (l.redecorate D).isVec <;> simp_all

theorem redecorate_name (l : Leaf) : (l.redecorate D).name = l.name := rfl
theorem redecorate_content (l : Leaf) : (l.redecorate D).definition.content = l.definition.content := rfl
theorem redecorate_isVirtual (l : Leaf) : (l.redecorate D).isVirtual = l.isVirtual := rfl
theorem redecorate_isUnordered (l : Leaf) : (l.redecorate D).isUnordered = l.isUnordered := rfl

theorem redecorate_get (n : Name) : (S.redecorate D).get n = (S.get n).map (Root.redecorate D) := by
  unfold SchemaContext.get SchemaContext.redecorate
  simp only
  induction S.elements with
  | nil => rfl
  | cons p m ih =>
    obtain ⟨k, r⟩ := p
    simp only [List.map_cons, alookup]
    split
    · rfl
    · exact ih

theorem redecorate_inlineAlias (k : Nat) (c : LeafContent) : inlineAlias (S.redecorate D) k c = inlineAlias S k c := by
  induction k generalizing c with
  | zero => cases c <;> rfl
  | succ k ih =>
    cases c with
    | literal t => rfl
    | fixed s => rfl
    | named n =>
      simp only [inlineAlias, redecorate_get]
      cases h : S.get n with
      | none => rfl
      | some r => cases r <;> simp [Root.redecorate, LeafDef.redecorate, ih]

theorem redecorate_inlined (c : LeafContent) : inlined (S.redecorate D) c = inlined S c := by
  unfold inlined
  have : (S.redecorate D).aliasFuel = S.aliasFuel := by simp [SchemaContext.aliasFuel, SchemaContext.redecorate]
  rw [this, redecorate_inlineAlias]

theorem redecorate_resolveFrom (k : Nat) (r : Option Root) :
    (S.redecorate D).resolveFrom k (r.map (Root.redecorate D)) =
      (do let r ← S.resolveFrom k r; pure (r.map (Root.redecorate D))) := by
  induction k generalizing r with
  | zero => rfl
  | succ k ih =>
    cases r with
    | none => rfl
    | some r =>
      cases r with
      | leaf d =>
        obtain ⟨c, rs, docs⟩ := d
        cases c with
        | named m =>
          have := ih (S.get m)
          rw [← redecorate_get] at this
          exact this
        | literal t => rfl
        | fixed s => rfl
      | enum ns => rfl
      | element d => rfl
      | choice vs b docs => rfl

theorem redecorate_resolve (n : Name) :
    (S.redecorate D).resolve n = (do let r ← S.resolve n; pure (r.map (Root.redecorate D))) := by
  unfold SchemaContext.resolve
  have : (S.redecorate D).aliasFuel = S.aliasFuel := by simp [SchemaContext.aliasFuel, SchemaContext.redecorate]
  rw [this, redecorate_get, redecorate_resolveFrom]

theorem mapRes_map {α β γ : Type} (f : β → Res Str γ) (g : α → β) (as : List α) :
    mapRes f (as.map g) = mapRes (fun a => f (g a)) as := by
  induction as with
  | nil => rfl
  | cons a as ih => simp only [List.map_cons, mapRes, ih]

theorem mapRes_congr {α β : Type} {f g : α → Res Str β} (h : ∀ a, f a = g a) (as : List α) : mapRes f as = mapRes g as := by
  rw [funext h]

theorem redecorate_xmlName (n : Name) : (S.redecorate D).xmlName n = S.xmlName n := rfl
theorem redecorate_qname (n : Name) : (S.redecorate D).qname n = S.qname n := rfl

theorem redecorate_contentTy (c : LeafContent) : contentTy x (S.redecorate D) c = contentTy x S c := by
  simp only [contentTy, redecorate_inlined]
theorem redecorate_contentWrite (c : LeafContent) : contentWrite x (S.redecorate D) c = contentWrite x S c := by
  simp only [contentWrite, redecorate_inlined]
theorem redecorate_contentRead (c : LeafContent) : contentRead x (S.redecorate D) c = contentRead x S c := by
  simp only [contentRead, redecorate_inlined]

theorem redecorate_leafDecl (l : Leaf) : leafDecl x (S.redecorate D) (l.redecorate D) = leafDecl x S l := by
  simp only [leafDecl, redecorate_isOptional, redecorate_isVec, redecorate_name, redecorate_content, redecorate_contentTy]

theorem redecorate_leafWrite (l : Leaf) : leafWrite x (S.redecorate D) (l.redecorate D) = leafWrite x S l := by
  simp only [leafWrite, redecorate_isOptional, redecorate_isVec, redecorate_name, redecorate_content, redecorate_isVirtual,
    redecorate_contentWrite, redecorate_xmlName]
  cases l.definition.content with
  | named n =>
    by_cases hv : l.isVirtual = true
    · simp only [hv, if_true]
    · simp only [hv, Bool.false_eq_true, if_false, redecorate_resolve]
      cases S.resolve n with
      | ok r =>
        cases r with
        | none => rfl
        | some r => cases r <;> rfl
      | err e => rfl
      | panic => rfl
      | diverge => rfl
  | literal t => rfl
  | fixed s => rfl

theorem redecorate_leafRead (l : Leaf) : leafRead x (S.redecorate D) (l.redecorate D) = leafRead x S l := by
  simp only [leafRead, redecorate_isOptional, redecorate_isVec, redecorate_name, redecorate_content, redecorate_isVirtual, redecorate_isUnordered,
    redecorate_contentRead, redecorate_qname]
  rfl

theorem redecorate_attrDecl (a : Attribute) : attrDecl x (S.redecorate D) (a.redecorate D) = attrDecl x S a := by
  simp only [attrDecl, Attribute.redecorate, redecorate_contentTy]; rfl
theorem redecorate_attrWrite (a : Attribute) : attrWrite x (S.redecorate D) (a.redecorate D) = attrWrite x S a := by
  simp only [attrWrite, Attribute.redecorate, redecorate_contentTy, redecorate_xmlName]
theorem redecorate_attrRead (a : Attribute) : attrRead x (S.redecorate D) (a.redecorate D) = attrRead x S a := by
  simp only [attrRead, Attribute.redecorate, redecorate_contentTy]

theorem redecorate_variantDecl (l : Leaf) : variantDecl x (S.redecorate D) (l.redecorate D) = variantDecl x S l := by
  simp only [variantDecl, redecorate_isVec, redecorate_name, redecorate_content, redecorate_contentTy]
theorem redecorate_variantWrite (l : Leaf) : variantWrite x (S.redecorate D) (l.redecorate D) = variantWrite x S l := by
  simp only [variantWrite, redecorate_isVec, redecorate_name, redecorate_content, redecorate_contentWrite]
theorem redecorate_variantRead (l : Leaf) : variantRead x (S.redecorate D) (l.redecorate D) = variantRead x S l := by
  simp only [variantRead, redecorate_isVec, redecorate_name, redecorate_content, redecorate_isVirtual, redecorate_contentRead, redecorate_qname]
theorem redecorate_leafCheck (l : Leaf) : leafCheck x (S.redecorate D) (l.redecorate D) = leafCheck x S l := by
  simp only [leafCheck, redecorate_name, redecorate_content, redecorate_isVirtual, redecorate_qname]
  rfl

theorem redecorate_lookLeaves (ls : List Leaf) :
    lookLeaves (ls.map (Leaf.redecorate D)) = (lookLeaves ls).map (Leaf.redecorate D) := by
  induction ls with
  | nil => rfl
  | cons l ls ih =>
    simp only [List.map_cons, lookLeaves, ih]
    rw [redecorate_isOptional]
    split <;> simp

theorem redecorate_rootDecl (r : Root) : rootDecl x (S.redecorate D) (r.redecorate D) = rootDecl x S r := by
  cases r with
  | leaf d => simp only [rootDecl, Root.redecorate, LeafDef.redecorate, redecorate_contentTy]
  | enum ns => rfl
  | element d =>
    simp only [rootDecl, Root.redecorate, ElementDef.redecorate, mapRes_map, mapRes_congr (redecorate_attrDecl D x S)]
    congr 1
    cases d.content with
    | none => rfl
    | some c =>
      cases c with
      | leaf n d => simp only [Option.map_some, ElementContent.redecorate, contentDecl, LeafDef.redecorate, redecorate_contentTy]
      | leaves ls =>
        simp only [Option.map_some, ElementContent.redecorate, contentDecl, mapRes_map, mapRes_congr (redecorate_leafDecl D x S)]
  | choice vs b docs => simp only [rootDecl, Root.redecorate, mapRes_map, mapRes_congr (redecorate_variantDecl D x S)]

theorem redecorate_rootWrite (r : Root) : rootWrite x (S.redecorate D) (r.redecorate D) = rootWrite x S r := by
  cases r with
  | leaf d => simp only [rootWrite, Root.redecorate, LeafDef.redecorate, redecorate_contentWrite]
  | enum ns => rfl
  | element d =>
    simp only [rootWrite, Root.redecorate, ElementDef.redecorate, mapRes_map, mapRes_congr (redecorate_attrWrite D x S)]
    cases d.content with
    | none => rfl
    | some c =>
      cases c with
      | leaf n d =>
        simp only [Option.map_some, ElementContent.redecorate, elementContentWrite, LeafDef.redecorate, redecorate_contentWrite]
        rfl
      | leaves ls =>
        simp only [Option.map_some, ElementContent.redecorate, elementContentWrite, mapRes_map,
          mapRes_congr (redecorate_leafWrite D x S)]
        rfl
  | choice vs b docs => simp only [rootWrite, Root.redecorate, mapRes_map, mapRes_congr (redecorate_variantWrite D x S)]

theorem redecorate_rootRead (r : Root) : rootRead x (S.redecorate D) (r.redecorate D) = rootRead x S r := by
  cases r with
  | leaf d => simp only [rootRead, Root.redecorate, LeafDef.redecorate, redecorate_contentRead]
  | enum ns => rfl
  | element d =>
    simp only [rootRead, Root.redecorate, ElementDef.redecorate, mapRes_map, mapRes_congr (redecorate_attrRead D x S)]
    cases d.content with
    | none => rfl
    | some c =>
      cases c with
      | leaf n d => simp only [Option.map_some, ElementContent.redecorate, elementContentRead, LeafDef.redecorate,
          redecorate_contentRead]
      | leaves ls => simp only [Option.map_some, ElementContent.redecorate, elementContentRead, mapRes_map,
          mapRes_congr (redecorate_leafRead D x S)]
  | choice vs b docs => simp only [rootRead, Root.redecorate, mapRes_map, mapRes_congr (redecorate_variantRead D x S)]

theorem redecorate_rootLook (r : Root) : rootLook x (S.redecorate D) (r.redecorate D) = rootLook x S r := by
  cases r with
  | leaf d => rfl
  | enum ns => rfl
  | element d =>
    simp only [rootLook, Root.redecorate, ElementDef.redecorate]
    cases d.content with
    | none => rfl
    | some c =>
      cases c with
      | leaf n d => rfl
      | leaves ls => simp only [Option.map_some, ElementContent.redecorate, redecorate_lookLeaves, mapRes_map,
          mapRes_congr (redecorate_leafCheck D x S)]
  | choice vs b docs => simp only [rootLook, Root.redecorate, mapRes_map, mapRes_congr (redecorate_leafCheck D x S)]

/-- **C29/C30 (what holds instead).** The generated module is the same whatever facets, attribute defaults and
documentation the schema declares, and whatever the numbers in occurrence bounds are. -/
theorem C29_C30_no_effect : generateAll x (S.redecorate D) = generateAll x S := by
  unfold generateAll
  have hk : (S.redecorate D).elements.map Prod.fst = S.elements.map Prod.fst := by
    simp [SchemaContext.redecorate, Function.comp_def]
  rw [hk]
  refine mapRes_congr (fun n => ?_) _
  unfold generateElement
  rw [redecorate_get]
  cases S.get n with
  | none => rfl
  | some r =>
    simp only [Option.map_some, redecorate_rootDecl, redecorate_rootWrite, redecorate_xmlName, redecorate_qname,
      redecorate_rootRead, redecorate_rootLook]
    rfl

/-- **C22 (what holds instead of the bounds).** The numbers in occurrence bounds have no effect: the generated module, and so what
is read and written, is the same for all bounds that agree in whether the element may be missing and whether it may be
repeated. Hence whatever is accepted under one such pair of bounds is accepted under every other one. -/
theorem C22_bounds_no_effect (mn : Leaf → Nat) (mx : Leaf → MaxOccurs) (hmn : ∀ l, mn l = 0 ↔ l.minOccurs = 0)
    (hmx : ∀ l, (mx l = .number 0 ∨ mx l = .number 1) ↔ (l.maxOccurs = .number 0 ∨ l.maxOccurs = .number 1)) :
    generateAll x (S.redecorate ⟨LeafDef.restrictions, Attribute.default, id, mn, mx, hmn, hmx⟩) = generateAll x S :=
  C29_C30_no_effect _ x S

end Redecorate

end Xsd
