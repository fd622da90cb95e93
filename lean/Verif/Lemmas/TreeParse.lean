import Verif.Spec.Tree
import Verif.Lemmas.Components
/-!
# What the parser makes of the nodes of a schema file

`RootFor`, `LeafFor` and the others say what the definition made of a node looks like, given the final table `G` of types and the final
table `t` of namespaces.
-/
namespace Xsd.Tree
open Xsd.Flat (Typ RefersTo TypeAttr LocalNs SimpleType Lexical attributeNodes Names TypIs DocOK)

/-- The leaf as a member of an `xs:all`. -/
def _root_.Xsd.Leaf.unordered (l : Leaf) : Leaf := { l with isUnordered := true }

/-- The leaf has the occurrences of the node. -/
structure OccFor (p : Nd) (l : Leaf) : Prop where
  min : MinOf p l.minOccurs
  max : MaxOf p l.maxOccurs
  ord : l.isUnordered = false

section
variable (F : Files) (path : Str) (t : Namespaces) (G : Name → Option Root)

/-- The content made of a type. -/
inductive TypFor : Typ → LeafContent → Prop where
  | builtin {l} : TypFor (.builtin l) (.literal l)
  | fixed {s} : TypFor (.fixed s) (.fixed s)
  | own {q n d c} (h : Names t n q) (ht : Top F path q d c) (hc : c.name ≠ c!"element") : TypFor (.own q) (.named n)

/-- The type of an attribute is a string type or an enumeration. -/
def StringType (q : QName) : Prop :=
  ∃ d c, Top F path q d c ∧ c.name = c!"simpleType" ∧ ∀ t, SimpleType d c (.text t) → t.prim = .string

variable (d : XDoc)

/-- The content made of an attribute. -/
inductive AttrContentFor (nd : Nd) : LeafContent → Prop where
  | typed {ty c} (hs : ∀ c ∈ nd.xsdKids, c.name ≠ c!"simpleType") (ht : TypeAttr d nd ty)
      (hu : ∀ ty', TypeAttr d nd ty' → ty' = ty) (hc : TypFor F path t ty c)
      (hq : ∀ q, ty = .own q → StringType F path q) : AttrContentFor nd c
  | text {c l} (hc : c ∈ nd.xsdKids) (hn : c.name = c!"simpleType") (ho : ∀ c' ∈ nd.xsdKids, c'.name = c!"simpleType" → c' = c)
      (h : SimpleType d c (.text l)) (hu : ∀ D, SimpleType d c D → D = .text l) : AttrContentFor nd (.literal l)
  | enumeration {c vs n} (hc : c ∈ nd.xsdKids) (hn : c.name = c!"simpleType") (ho : ∀ c' ∈ nd.xsdKids, c'.name = c!"simpleType" → c' = c)
      (h : SimpleType d c (.enumeration vs)) (hu : ∀ D, SimpleType d c D → D = .enumeration vs)
      (hg : G n = some (.enum (vs.map (fun v => ⟨v, .none⟩)))) : AttrContentFor nd (.named n)

/-- The attributes made of nodes; prohibited ones are left out. -/
inductive AttrsFor : List Nd → List Attribute → Prop where
  | nil : AttrsFor [] []
  | skip {c cs as} (hu : c.value c!"use" = some c!"prohibited") (hs : AttrsFor cs as) : AttrsFor (c :: cs) as
  | cons {c cs a as n} (hn : c.value c!"name" = some n) (ha : a.name = ⟨n, .none⟩) (hu : c.value c!"use" ≠ some c!"prohibited")
      (hr : a.isOptional = decide (c.value c!"use" ≠ some c!"required")) (hc : AttrContentFor F path t G d c a.content)
      (hs : AttrsFor cs as) : AttrsFor (c :: cs) (a :: as)

mutual
/-- The leaf made of a particle. -/
inductive LeafFor : Nd → Leaf → Prop where
  | ref {p l v q d' c} (hn : p.name = c!"element") (ho : OccFor p l) (hv : l.isVirtual = false) (hr : p.value c!"ref" = some v)
      (h : RefersTo d.root.1 v q) (hu : ∀ q', RefersTo d.root.1 v q' → q' = q) (hq : q.ns ≠ some nsXsd) (hna : Names t l.name q) (hc : l.definition.content = .named l.name)
      (ht : Top F path q d' c) (hcn : c.name = c!"element") : LeafFor p l
  | typed {p l n ns ty} (hn : p.name = c!"element") (ho : OccFor p l) (hv : l.isVirtual = false) (hr : p.value c!"ref" = none)
      (hna : p.value c!"name" = some n) (hns : LocalNs d ns) (hl : Names t l.name ⟨n, ns⟩) (ht : TypeAttr d p ty)
      (hu : ∀ ty', TypeAttr d p ty' → ty' = ty) (hc : TypFor F path t ty l.definition.content) : LeafFor p l
  | any {p l n ns} (hn : p.name = c!"element") (ho : OccFor p l) (hv : l.isVirtual = false) (hr : p.value c!"ref" = none)
      (hna : p.value c!"name" = some n) (hns : LocalNs d ns) (hl : Names t l.name ⟨n, ns⟩) (ht : p.value c!"type" = none)
      (hk : ∀ c ∈ p.xsdKids, c.name ≠ c!"simpleType" ∧ c.name ≠ c!"complexType") (hc : l.definition.content = .literal .any) : LeafFor p l
  | inline {p l n ns c m r} (hn : p.name = c!"element") (ho : OccFor p l) (hv : l.isVirtual = false) (hr : p.value c!"ref" = none)
      (hna : p.value c!"name" = some n) (hns : LocalNs d ns) (hl : Names t l.name ⟨n, ns⟩) (ht : p.value c!"type" = none)
      (hc : c ∈ p.xsdKids) (hcn : c.name = c!"complexType" ∨ c.name = c!"simpleType")
      (hu : ∀ c' ∈ p.xsdKids, c'.name = c!"complexType" ∨ c'.name = c!"simpleType" → c' = c)
      (hm : l.definition.content = .named m) (hg : G m = some r) (h : RootFor c r) : LeafFor p l
  | sequence {p l m ls} (hn : p.name = c!"sequence") (ho : OccFor p l) (hv : l.isVirtual = true) (hm : l.definition.content = .named m)
      (hg : G m = some (groupRoot ls)) (h : LeavesFor p.particles ls) : LeafFor p l
  | choice {p l m vs} (hn : p.name = c!"choice") (ho : OccFor p l) (hv : l.isVirtual = true) (hm : l.definition.content = .named m)
      (hg : G m = some (.choice vs true none)) (h : LeavesFor p.particles vs) : LeafFor p l
/-- The leaves made of particles. -/
inductive LeavesFor : List Nd → List Leaf → Prop where
  | nil : LeavesFor [] []
  | cons {p ps l ls} (h : LeafFor p l) (hs : LeavesFor ps ls) : LeavesFor (p :: ps) (l :: ls)
/-- The definition made of a type or a top-level element. -/
inductive RootFor : Nd → Root → Prop where
  | typed {nd ty c rs docs} (hn : nd.name = c!"element") (ht : TypeAttr d nd ty) (hu : ∀ ty', TypeAttr d nd ty' → ty' = ty)
      (hc : TypFor F path t ty c) : RootFor nd (.leaf ⟨c, rs, docs⟩)
  | inline {nd c r} (hn : nd.name = c!"element") (ht : nd.value c!"type" = none) (hc : c ∈ nd.xsdKids)
      (hcn : c.name = c!"complexType" ∨ c.name = c!"simpleType")
      (hu : ∀ c' ∈ nd.xsdKids, c'.name = c!"complexType" ∨ c'.name = c!"simpleType" → c' = c) (h : RootFor c r) : RootFor nd r
  | text {nd l rs docs} (hn : nd.name = c!"simpleType") (h : SimpleType d nd (.text l)) (hu : ∀ D, SimpleType d nd D → D = .text l) :
      RootFor nd (.leaf ⟨.literal l, rs, docs⟩)
  | enumeration {nd vs} (hn : nd.name = c!"simpleType") (h : SimpleType d nd (.enumeration vs))
      (hu : ∀ D, SimpleType d nd D → D = .enumeration vs) : RootFor nd (.enum (vs.map (fun v => ⟨v, .none⟩)))
  | complex {nd e as} (hn : nd.name = c!"complexType") (h : ContentFor nd e.content as) (ha : AttrsFor F path t G d as e.attributes) :
      RootFor nd (.element e)
/-- The content made of a complex type, and the nodes its attributes are made of. -/
inductive ContentFor : Nd → Option ElementContent → List Nd → Prop where
  | empty {nd} (hk : ∀ c ∈ nd.xsdKids, c.name ∉ contentNames) : ContentFor nd none (attributeNodes nd)
  | once {nd c ls mx} (hc : c ∈ nd.xsdKids) (hn : c.name = c!"sequence") (hu : ∀ c' ∈ nd.xsdKids, c'.name ∈ contentNames → c' = c)
      (hmn : MinOf c 1) (hmx : MaxOf c mx) (hmx' : mx = .number 0 ∨ mx = .number 1) (h : LeavesFor c.particles ls) :
      ContentFor nd (some (.leaves ls)) (attributeNodes nd)
  | all {nd c ls mx} (hc : c ∈ nd.xsdKids) (hn : c.name = c!"all") (hu : ∀ c' ∈ nd.xsdKids, c'.name ∈ contentNames → c' = c)
      (hmn : MinOf c 1) (hmx : MaxOf c mx) (hmx' : mx = .number 0 ∨ mx = .number 1)
      (ho : ∀ p ∈ c.particles, p.name = c!"element" ∧ Single p)
      (hp : c.particles.Pairwise (fun a b => ∀ q, ElementName d a q → ¬ ElementName d b q)) (h : LeavesFor c.particles ls) :
      ContentFor nd (some (.leaves (ls.map Leaf.unordered))) (attributeNodes nd)
  | group {nd c l} (hc : c ∈ nd.xsdKids) (hn : c.name = c!"sequence") (hu : ∀ c' ∈ nd.xsdKids, c'.name ∈ contentNames → c' = c)
      (h : LeafFor c l) : ContentFor nd (some (.leaves [l])) (attributeNodes nd)
  | choice {nd c vs ln m rs docs} (hc : c ∈ nd.xsdKids) (hn : c.name = c!"choice") (hu : ∀ c' ∈ nd.xsdKids, c'.name ∈ contentNames → c' = c)
      (hmn : MinOf c 1) (hmx : MaxOf c (.number 1)) (hg : G m = some (.choice vs false none)) (h : LeavesFor c.particles vs) :
      ContentFor nd (some (.leaf ln ⟨.named m, rs, docs⟩)) (attributeNodes nd)
  | simpleContent {nd c r ty ln lc rs docs} (hc : c ∈ nd.xsdKids) (hn : c.name = c!"simpleContent")
      (hu : ∀ c' ∈ nd.xsdKids, c'.name ∈ contentNames → c' = c) (hr : r ∈ c.xsdKids) (hrn : r.name = c!"extension")
      (hur : ∀ r' ∈ c.xsdKids, r' = r) (hb : BaseAttr d r ty)
      (hub : ∀ ty', BaseAttr d r ty' → ty' = ty) (ht : TypFor F path t ty lc) :
      ContentFor nd (some (.leaf ln ⟨lc, rs, docs⟩)) (attributeNodes r)
  | complexContent {nd c r ty ln lc rs docs} (hc : c ∈ nd.xsdKids) (hn : c.name = c!"complexContent")
      (hu : ∀ c' ∈ nd.xsdKids, c'.name ∈ contentNames → c' = c) (hr : r ∈ c.xsdKids) (hrn : r.name = c!"extension")
      (hur : ∀ r' ∈ c.xsdKids, r' = r) (hb : BaseAttr d r ty)
      (hub : ∀ ty', BaseAttr d r ty' → ty' = ty) (ht : TypFor F path t ty lc)
      (hg : ∀ g ∈ r.xsdKids, g.name ∉ contentNames) : ContentFor nd (some (.leaf ln ⟨lc, rs, docs⟩)) (attributeNodes r)
  | extension {nd c r g ty lb l} (hc : c ∈ nd.xsdKids) (hn : c.name = c!"complexContent")
      (hu : ∀ c' ∈ nd.xsdKids, c'.name ∈ contentNames → c' = c) (hr : r ∈ c.xsdKids) (hrn : r.name = c!"extension")
      (hur : ∀ r' ∈ c.xsdKids, r' = r) (hb : BaseAttr d r ty)
      (hub : ∀ ty', BaseAttr d r ty' → ty' = ty) (hg : g ∈ r.xsdKids) (hgn : g.name = c!"sequence")
      (hug : ∀ g' ∈ r.xsdKids, g'.name ∈ contentNames → g' = g)
      (hlb : lb.isVirtual = true ∧ lb.minOccurs = 1 ∧ lb.maxOccurs = .number 1 ∧ lb.isUnordered = false)
      (ht : TypFor F path t ty lb.definition.content) (hl : ∀ q, ty = .own q → ∀ d' b, Top F path q d' b → ¬ AnyOrder F path d' b)
      (h : LeafFor g l) : ContentFor nd (some (.leaves [lb, l])) (attributeNodes r)
end

end

section
variable {F : Files} {path : Str} {t : Namespaces} {G : Name → Option Root} {d : XDoc}

theorem LeafFor.ord {p : Nd} {l : Leaf} (h : LeafFor F path t G d p l) : l.isUnordered = false := by
  cases h <;> (rename_i ho _ _ <;> first | exact OccFor.ord ho | skip) <;> (rename OccFor _ _ => ho; exact ho.ord)

theorem LeavesFor.ord {ps : List Nd} {ls : List Leaf} (h : LeavesFor F path t G d ps ls) : ∀ l ∈ ls, l.isUnordered = false := by
  induction ps generalizing ls with
  | nil => cases h; exact nofun
  | cons p ps ih =>
    cases h with
    | cons h hs =>
      intro l hl
      rcases List.mem_cons.1 hl with rfl | hl
      · exact h.ord
      · exact ih hs l hl

theorem RootFor.withDocs {nd : Nd} {r : Root} (h : RootFor F path t G d nd r) (docs : Option Str) :
    RootFor F path t G d nd (r.withDocs docs) := by
  match h with
  | .typed (c := c) (rs := rs) (docs := docs0) h1 h2 h3 h4 =>
    cases docs with
    | none => exact .typed h1 h2 h3 h4
    | some w => exact .typed h1 h2 h3 h4
  | .inline h1 h2 h3 h4 h5 h => exact .inline h1 h2 h3 h4 h5 (RootFor.withDocs h docs)
  | .text h1 h2 h3 =>
    cases docs with
    | none => exact .text h1 h2 h3
    | some w => exact .text h1 h2 h3
  | .enumeration h1 h2 h3 =>
    cases docs with
    | none => exact .enumeration h1 h2 h3
    | some w => exact .enumeration h1 h2 h3
  | .complex h1 h2 h3 =>
    cases docs with
    | none => exact .complex h1 h2 h3
    | some w => exact .complex h1 h2 h3

theorem RootFor.elementDocs {nd : Nd} {e : ElementDef} (h : RootFor F path t G d nd (.element e)) (docs : Option Str) :
    RootFor F path t G d nd (.element (e.withDocs docs)) := by
  cases docs with
  | none => exact h
  | some w => exact h.withDocs (some w)

end
end Xsd.Tree
