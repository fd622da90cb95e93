import Verif.Lemmas.TreeValues
import Verif.Lemmas.Sound
/-!
# Which definitions made of the nodes of a schema file have members in any order
-/
namespace Xsd.Tree
open Xsd.Flat (Typ RefersTo TypeAttr LocalNs SimpleType Lexical attributeNodes Names TypIs DocOK hasText_iff cat_append ritem_one)

/-! ## Reordered children -/

theorem sameByName_perm {p p' : List Elem} (h : SameByName p p') : p.Perm p' := by
  classical
  rw [List.perm_iff_count]
  intro a
  have hf : ∀ l : List Elem, l.count a = (l.filter (fun ch => decide (ch.1.name = a.1.name))).count a := by
    intro l
    rw [List.count_filter]
    simp
  rw [hf p, hf p', h]

theorem arranged_perm {ls : List Leaf} {es' es : List Elem} (h : Arranged ls es' es) : es'.Perm es := by
  rcases h with rfl | ⟨_, h⟩
  · exact .refl _
  · exact sameByName_perm h

theorem cat_perm {u : Prop} {m : Mode} {as bs cs : List Elem} (h : Cat u m as bs cs) : cs.Perm (as ++ bs) := by
  obtain ⟨b, n⟩ := m
  cases b with
  | true => exact h ▸ .refl _
  | false => exact h.1.perm

theorem cat_of_append {u : Prop} {m : Mode} {as bs : List Elem} : Cat u m as bs (as ++ bs) := by
  obtain ⟨b, n⟩ := m
  cases b with
  | true => exact rfl
  | false => exact ⟨.append as bs, fun _ => rfl⟩

/-! ## Looseness of definitions -/

/-- The same as `Loose` for the content of an element. -/
def LooseContent (S : SchemaContext) : Option ElementContent → Prop
  | none => False
  | some (.leaf _ d) => LooseVal S d.content
  | some (.leaves ls) => ∃ l ∈ ls, LooseLeaf S l

/-- The same as `Loose` for a definition. -/
def LooseRoot (S : SchemaContext) : Root → Prop
  | .leaf d => LooseVal S d.content
  | .enum _ => False
  | .element e => LooseContent S e.content
  | .choice vs _ _ => ∃ l ∈ vs, LooseLeaf S l

theorem loose_root {S : SchemaContext} {n : Name} {r : Root} (hr : S.get n = some r) (h : Loose S n) : LooseRoot S r := by
  have key : (∃ l ∈ r.leaves, LooseLeaf S l) ∨ (∃ c, r.value = some c ∧ LooseVal S c) := by
    cases h with
    | member h hl ha => rw [hr] at h; cases h; exact .inl ⟨_, hl, .inl ha⟩
    | group h hl hv hm hL => rw [hr] at h; cases h; exact .inl ⟨_, hl, .inr ⟨hv, _, hm, hL⟩⟩
    | value h hc hm hL => rw [hr] at h; cases h; exact .inr ⟨_, hc, _, hm, hL⟩
  cases r with
  | leaf d =>
    rcases key with ⟨_, hl, _⟩ | ⟨_, hc, h⟩
    · cases hl
    · cases hc; exact h
  | enum ns =>
    rcases key with ⟨_, hl, _⟩ | ⟨_, hc, h⟩
    · cases hl
    · cases hc
  | element e =>
    show LooseContent S e.content
    simp only [Root.leaves, Root.value] at key
    generalize e.content = c at key
    rcases c with _ | ⟨n, d⟩ | ls
    · simp at key
    · simpa [LooseContent] using key
    · simpa [LooseContent] using key
  | choice vs b d =>
    rcases key with h | ⟨_, hc, h⟩
    · exact h
    · cases hc

theorem looseVal_root {S : SchemaContext} {n : Name} {r : Root} (hr : S.get n = some r) (h : LooseVal S (.named n)) : LooseRoot S r := by
  obtain ⟨m, hm, h⟩ := h
  cases hm with
  | alias hd hm =>
    rw [hr] at hd
    cases hd
    exact ⟨m, hm, h⟩
  | name _ => exact loose_root hr h

theorem not_looseVal_literal {S : SchemaContext} {l : LiteralType} : ¬ LooseVal S (.literal l) := by rintro ⟨_, hm, _⟩; cases hm

theorem not_looseVal_fixed {S : SchemaContext} {s : Str} : ¬ LooseVal S (.fixed s) := by rintro ⟨_, hm, _⟩; cases hm

/-! ## Leaves made of particles -/

section
variable {F : Files} {path : Str} {S : SchemaContext} {d : XDoc}

mutual
theorem leaf_tight {p : Nd} {l : Leaf} (h : LeafFor F path S.namespaces S.get d p l) : ¬ LooseLeaf S l := by
  match h with
  | .ref _ ho hv .. => exact Flat.not_looseLeaf hv (Flat.ordered_anywhere ho.ord)
  | .typed _ ho hv .. => exact Flat.not_looseLeaf hv (Flat.ordered_anywhere ho.ord)
  | .any _ ho hv .. => exact Flat.not_looseLeaf hv (Flat.ordered_anywhere ho.ord)
  | .inline _ ho hv .. => exact Flat.not_looseLeaf hv (Flat.ordered_anywhere ho.ord)
  | .sequence _ ho hv hm hg hL =>
    rintro (h | ⟨_, h⟩)
    · rw [Flat.ordered_anywhere ho.ord] at h; cases h
    · rw [hm] at h
      exact leaves_tight hL (looseVal_root hg h)
  | .choice _ ho hv hm hg hL =>
    rintro (h | ⟨_, h⟩)
    · rw [Flat.ordered_anywhere ho.ord] at h; cases h
    · rw [hm] at h
      exact leaves_tight hL (looseVal_root hg h)
theorem leaves_tight {ps : List Nd} {ls : List Leaf} (h : LeavesFor F path S.namespaces S.get d ps ls) : ¬ ∃ l ∈ ls, LooseLeaf S l := by
  match h with
  | .nil => rintro ⟨_, h, _⟩; cases h
  | .cons hl hs =>
    have h1 := leaf_tight hl
    have h2 := leaves_tight hs
    rintro ⟨l', h, hl'⟩
    rcases List.mem_cons.1 h with rfl | h
    · exact h1 hl'
    · exact h2 ⟨_, h, hl'⟩
end

end

/-! ## Types -/

section
variable {x : Ext} {F : Files} {path : Str} {S : SchemaContext} (A : Parsed x F path S)
include A

/-- Where a value of a type leads. -/
theorem typ_means {ty : Typ} {c : LeafContent} (ht : TypFor F path S.namespaces ty c) {m : Name} (hm : Means S c (.named m)) :
    ∃ q d' b r', ty = .own q ∧ Top F path q d' b ∧ b.name ≠ c!"element" ∧ S.get m = some r' ∧ RootFor F path S.namespaces S.get d' b r' := by
  cases ht with
  | builtin => cases hm
  | fixed => cases hm
  | @own q n d' b hq ht hc =>
    obtain ⟨r, hr, hR⟩ := A.top ht hq
    refine ⟨q, d', b, r, rfl, ht, hc, ?_, hR⟩
    cases hm with
    | name _ => exact hr
    | alias hd hm =>
      rw [hr] at hd
      cases hd
      cases hR with
      | typed hn => exact absurd hn hc
      | inline hn => exact absurd hn hc
      | text => cases hm

omit A in
theorem anyOrder_base {d : XDoc} {nd c r : Nd} (hc : c ∈ nd.xsdKids) (hr : r ∈ c.xsdKids) {q : QName} (hb : BaseAttr d r (.own q)) {d' : XDoc}
    {b : Nd} (ht : Top F path q d' b) (h : AnyOrder F path d' b) : AnyOrder F path d nd := by
  cases hb with
  | own hv hq _ => exact .base hc hr hv hq ht h

/-- A type with members in any order has an `xs:all`, or its base has. -/
theorem loose_anyOrder {n : Name} (h : Loose S n) {d : XDoc} {b : Nd} {r : Root} (hr : S.get n = some r)
    (hR : RootFor F path S.namespaces S.get d b r) (hb : b.name ≠ c!"element") : AnyOrder F path d b := by
  induction h generalizing d b r with
  | @member n r' l h hl ha =>
    rw [hr] at h
    cases h
    cases hR with
    | typed hn => exact absurd hn hb
    | inline hn => exact absurd hn hb
    | text => cases hl
    | enumeration => cases hl
    | @complex _ e as hn hC hA =>
      simp only [Root.leaves] at hl
      generalize e.content = c at hC hl
      cases hC with
      | empty => cases hl
      | once _ _ _ _ _ _ hL => exact absurd ⟨l, hl, .inl ha⟩ (leaves_tight hL)
      | all hc hn => exact .all hc hn
      | group _ _ _ hL =>
        cases List.mem_singleton.1 hl
        exact absurd (.inl ha) (leaf_tight hL)
      | choice => cases hl
      | simpleContent => cases hl
      | complexContent => cases hl
      | extension hc hn hu hr' hrn hur hb hub hg hgn hug hlb ht hla hL =>
        rcases List.mem_cons.1 hl with rfl | hl
        · simp [Leaf.anywhere, hlb.1] at ha
        · cases List.mem_singleton.1 hl
          exact absurd (.inl ha) (leaf_tight hL)
  | @group n r' l m h hl hv hm hL' ih =>
    rw [hr] at h
    cases h
    have hLL : LooseLeaf S l := .inr ⟨hv, m, hm, hL'⟩
    cases hR with
    | typed hn => exact absurd hn hb
    | inline hn => exact absurd hn hb
    | text => cases hl
    | enumeration => cases hl
    | @complex _ e as hn hC hA =>
      simp only [Root.leaves] at hl
      generalize e.content = c at hC hl
      cases hC with
      | empty => cases hl
      | once _ _ _ _ _ _ hL => exact absurd ⟨l, hl, hLL⟩ (leaves_tight hL)
      | all hc hn => exact .all hc hn
      | group _ _ _ hL =>
        cases List.mem_singleton.1 hl
        exact absurd hLL (leaf_tight hL)
      | choice => cases hl
      | simpleContent => cases hl
      | complexContent => cases hl
      | extension hc hn hu hr' hrn hur hb' hub hg hgn hug hlb ht hla hL =>
        rcases List.mem_cons.1 hl with rfl | hl
        · obtain ⟨q, d', b', r', rfl, ht', hbn, hg', hR'⟩ := typ_means A ht hm
          exact anyOrder_base hc hr' hb' ht' (ih hg' hR' hbn)
        · cases List.mem_singleton.1 hl
          exact absurd hLL (leaf_tight hL)
  | @value n r' c m h hc hm hL' ih =>
    rw [hr] at h
    cases h
    cases hR with
    | typed hn => exact absurd hn hb
    | inline hn => exact absurd hn hb
    | text => cases hc; cases hm
    | enumeration => cases hc
    | @complex _ e as hn hC hA =>
      simp only [Root.value] at hc
      generalize e.content = c' at hC hc
      cases hC with
      | empty => cases hc
      | once => cases hc
      | all => cases hc
      | group => cases hc
      | choice _ _ _ _ _ hg hL =>
        cases hc
        exact absurd (looseVal_root hg ⟨m, hm, hL'⟩) (leaves_tight hL)
      | simpleContent hc' hn hu hr' hrn hur hb' hub ht =>
        cases hc
        obtain ⟨q, d', b', r', rfl, ht', hbn, hg', hR'⟩ := typ_means A ht hm
        exact anyOrder_base hc' hr' hb' ht' (ih hg' hR' hbn)
      | complexContent hc' hn hu hr' hrn hur hb' hub ht hg =>
        cases hc
        obtain ⟨q, d', b', r', rfl, ht', hbn, hg', hR'⟩ := typ_means A ht hm
        exact anyOrder_base hc' hr' hb' ht' (ih hg' hR' hbn)
      | extension => cases hc

/-- The base of an extension is not in any order. -/
theorem base_tight {ty : Typ} {c : LeafContent} (ht : TypFor F path S.namespaces ty c)
    (hl : ∀ q, ty = .own q → ∀ d' b, Top F path q d' b → ¬ AnyOrder F path d' b) : ¬ LooseVal S c := by
  rintro ⟨m, hm, h⟩
  obtain ⟨q, d', b, r', rfl, ht', hbn, hg', hR'⟩ := typ_means A ht hm
  exact hl q rfl d' b ht' (loose_anyOrder A h hg' hR' hbn)

end
end Xsd.Tree
