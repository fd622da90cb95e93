import Verif.Spec.Repr
import Verif.Model.Exec
/-!
# Facts about generated programs
-/
namespace Xsd

/-- The contents that a definition refers to. -/
def Root.contents : Root → List LeafContent
  | .leaf d => [d.content]
  | .enum _ => []
  | .element d => (match d.content with
    | none => []
    | some (.leaf _ d) => [d.content]
    | some (.leaves ls) => ls.map (fun l => l.definition.content)) ++ d.attributes.map (fun a => a.content)
  | .choice vs _ _ => vs.map (fun l => l.definition.content)

/-- Every name that is referred to, after following simple types, is defined. -/
def Closed (S : SchemaContext) : Prop :=
  ∀ p ∈ S.elements, ∀ c ∈ p.2.contents, ∀ n, Means S c (.named n) → (S.get n).isSome = true

/-- `P` is the module generated for the schema, and compiles as far as names are concerned: no two types
get the same identifier, and every type that is mentioned is defined. -/
structure Generated (x : Ext) (S : SchemaContext) (P : List TypeDef) : Prop where
  gen : generateAll x S = .ok P
  nodup : (P.map TypeDef.ident).Nodup
  closed : Closed S

theorem Means.functional {S : SchemaContext} {c c1 c2 : LeafContent} (h1 : Means S c c1) (h2 : Means S c c2) :
    c1 = c2 := by
  induction h1 with
  | literal t => cases h2; rfl
  | fixed s => cases h2; rfl
  | alias h hc ih =>
    cases h2 with
    | alias h' hc' => rw [h] at h'; cases h'; exact ih hc'
    | name h' => exact absurd h (h' _)
  | name h =>
    cases h2 with
    | alias h' hc' => exact absurd h' (h _)
    | name h' => rfl

theorem Means.fst_named {S : SchemaContext} {c : LeafContent} {n : Name} (h : Means S c (.named n)) :
    ∀ d, S.get n ≠ some (.leaf d) := by
  generalize hc : LeafContent.named n = c' at h
  induction h with
  | literal t => cases hc
  | fixed s => cases hc
  | alias h _ ih => exact ih hc
  | name h => cases hc; exact h

theorem inlineAlias_means {S : SchemaContext} {k : Nat} {c c' : LeafContent}
    (h : inlineAlias S k c = .ok c') : Means S c c' := by
  induction k generalizing c with
  | zero =>
    cases c with
    | literal t => simp [inlineAlias] at h; subst h; exact .literal t
    | fixed s => simp [inlineAlias] at h; subst h; exact .fixed s
    | named n => simp [inlineAlias] at h
  | succ k ih =>
    cases c with
    | literal t => simp [inlineAlias] at h; subst h; exact .literal t
    | fixed s => simp [inlineAlias] at h; subst h; exact .fixed s
    | named n =>
      simp only [inlineAlias] at h
      split at h
      · next d hd => exact .alias hd (ih h)
      · next hd => cases h; exact .name (fun d hd' => hd d hd')

theorem inlined_means {S : SchemaContext} {c c' : LeafContent} (h : inlined S c = .ok c') : Means S c c' :=
  inlineAlias_means h

theorem mapRes_ok {α β : Type} {f : α → Res Str β} {as : List α} {bs : List β} (h : mapRes f as = .ok bs) :
    (∀ a ∈ as, ∃ b ∈ bs, f a = .ok b) ∧ (∀ b ∈ bs, ∃ a ∈ as, f a = .ok b) := by
  induction as generalizing bs with
  | nil => simp [mapRes] at h; subst h; simp
  | cons a as ih =>
    simp only [mapRes, Res.bind_eq_ok] at h
    obtain ⟨b, hb, bs', hbs, hh⟩ := h
    cases hh
    have ih := ih hbs
    constructor
    · intro a' ha'
      rcases List.mem_cons.1 ha' with rfl | ha'
      · exact ⟨b, by simp, hb⟩
      · obtain ⟨b', hb', hf⟩ := ih.1 a' ha'; exact ⟨b', by simp [hb'], hf⟩
    · intro b' hb'
      rcases List.mem_cons.1 hb' with rfl | hb'
      · exact ⟨a, by simp, hb⟩
      · obtain ⟨a', ha', hf⟩ := ih.2 b' hb'; exact ⟨a', by simp [ha'], hf⟩

theorem mapRes_cons_ok {α β : Type} {f : α → Res Str β} {a : α} {as : List α} {bs : List β} :
    mapRes f (a :: as) = .ok bs ↔ ∃ b bs', f a = .ok b ∧ mapRes f as = .ok bs' ∧ bs = b :: bs' := by
  simp only [mapRes, Res.bind_eq_ok]
  constructor
  · rintro ⟨b, hb, bs', hbs, hh⟩; cases hh; exact ⟨b, bs', hb, hbs, rfl⟩
  · rintro ⟨b, bs', hb, hbs, rfl⟩; exact ⟨b, hb, bs', hbs, rfl⟩

theorem findType_of_mem {P : List TypeDef} (hn : (P.map TypeDef.ident).Nodup) {t : TypeDef} (h : t ∈ P) :
    findType P t.ident = some t := by
  induction P with
  | nil => simp at h
  | cons u P ih =>
    simp only [List.map_cons, List.nodup_cons] at hn
    unfold findType
    rw [List.find?_cons]
    rcases List.mem_cons.1 h with rfl | h
    · simp
    · have : u.ident ≠ t.ident := by
        intro he; exact hn.1 (he ▸ List.mem_map.2 ⟨t, h, rfl⟩)
      simp only [this, decide_false]
      exact ih hn.2 h

/-- What is generated for one definition. -/
structure GenOf (x : Ext) (S : SchemaContext) (n : Name) (r : Root) (t : TypeDef) : Prop where
  ident : typeIdent x n = .ok t.ident
  decl : rootDecl x S r = .ok t.decl
  write : rootWrite x S r = .ok t.toXml
  xmlName : S.xmlName n = .ok t.xmlName
  nss : schemaNss S = .ok t.nss
  rootName : S.expanded n = .ok t.rootName
  read : rootRead x S r = .ok t.fromXml
  look : rootLook x S r = .ok t.look

theorem generateElement_ok {x : Ext} {S : SchemaContext} {n : Name} {t : TypeDef}
    (h : generateElement x S n = .ok t) : ∃ r, S.get n = some r ∧ GenOf x S n r t := by
  unfold generateElement at h
  split at h
  · cases h
  · next r hr =>
    simp only [Res.bind_eq_ok] at h
    obtain ⟨i, hi, d, hd, w, hw, xn, hxn, ns, hns, rn, hrn, rd, hrd, l, hl, hh⟩ := h
    cases hh
    exact ⟨r, hr, ⟨hi, hd, hw, hxn, hns, (S.qname_eq n ▸ hrn), hrd, hl⟩⟩

theorem Generated.find {x : Ext} {S : SchemaContext} {P : List TypeDef} (G : Generated x S P) {n : Name} {r : Root}
    (hr : S.get n = some r) : ∃ t, t ∈ P ∧ findType P t.ident = some t ∧ GenOf x S n r t := by
  have hmem : n ∈ S.elements.map Prod.fst := List.mem_map.2 ⟨_, alookup_mem hr, rfl⟩
  obtain ⟨t, ht, hg⟩ := (mapRes_ok G.gen).1 n hmem
  obtain ⟨r', hr', hg'⟩ := generateElement_ok hg
  rw [hr] at hr'; cases hr'
  exact ⟨t, ht, findType_of_mem G.nodup ht, hg'⟩

theorem Generated.find' {x : Ext} {S : SchemaContext} {P : List TypeDef} (G : Generated x S P) {n : Name} {i : Str}
    (hi : typeIdent x n = .ok i) (hn : (S.get n).isSome = true) :
    ∃ r t, S.get n = some r ∧ findType P i = some t ∧ t.ident = i ∧ GenOf x S n r t := by
  obtain ⟨r, hr⟩ := Option.isSome_iff_exists.1 hn
  obtain ⟨t, _, hf, hg⟩ := G.find hr
  have := hg.ident
  rw [hi] at this; cases this
  exact ⟨r, t, hr, hf, rfl, hg⟩

theorem Generated.closedAt {x : Ext} {S : SchemaContext} {P : List TypeDef} (G : Generated x S P) {n : Name} {r : Root}
    (hr : S.get n = some r) {c : LeafContent} (hc : c ∈ r.contents) {m : Name} (hm : Means S c (.named m)) :
    (S.get m).isSome = true := G.closed _ (alookup_mem hr) c hc m hm

/-! Inversion of the content generators. -/

theorem contentRead_ok {x : Ext} {S : SchemaContext} {c : LeafContent} {v : ValRead}
    (h : contentRead x S c = .ok v) :
    (∃ t, Means S c (.literal t) ∧ v = .text t) ∨ (∃ s, Means S c (.fixed s) ∧ v = .fixed s) ∨
    (∃ n i, Means S c (.named n) ∧ typeIdent x n = .ok i ∧ v = .call i) := by
  unfold contentRead at h
  rw [Res.bind_eq_ok] at h
  obtain ⟨c', hc, h⟩ := h
  have := inlined_means hc
  cases c' with
  | literal t => cases h; exact .inl ⟨t, this, rfl⟩
  | named n =>
    simp only [Res.bind_eq_ok] at h
    obtain ⟨i, hi, h⟩ := h
    cases h; exact .inr (.inr ⟨n, i, this, hi, rfl⟩)
  | fixed s => cases h; exact .inr (.inl ⟨s, this, rfl⟩)

theorem contentWrite_ok {x : Ext} {S : SchemaContext} {c : LeafContent} {v : ValWrite}
    (h : contentWrite x S c = .ok v) :
    (∃ t, Means S c (.literal t) ∧ v = .chars t) ∨ (∃ s, Means S c (.fixed s) ∧ v = .fixed s) ∨
    (∃ n i, Means S c (.named n) ∧ typeIdent x n = .ok i ∧ v = .call i) := by
  unfold contentWrite at h
  rw [Res.bind_eq_ok] at h
  obtain ⟨c', hc, h⟩ := h
  have := inlined_means hc
  cases c' with
  | literal t => cases h; exact .inl ⟨t, this, rfl⟩
  | named n =>
    simp only [Res.bind_eq_ok] at h
    obtain ⟨i, hi, h⟩ := h
    cases h; exact .inr (.inr ⟨n, i, this, hi, rfl⟩)
  | fixed s => cases h; exact .inr (.inl ⟨s, this, rfl⟩)

theorem contentTy_ok {x : Ext} {S : SchemaContext} {c : LeafContent} {v : Ty}
    (h : contentTy x S c = .ok v) :
    (∃ t, Means S c (.literal t) ∧ v = .prim t.prim) ∨ (∃ s, Means S c (.fixed s) ∧ v = .unit) ∨
    (∃ n i, Means S c (.named n) ∧ typeIdent x n = .ok i ∧ v = .named i) := by
  unfold contentTy at h
  rw [Res.bind_eq_ok] at h
  obtain ⟨c', hc, h⟩ := h
  have := inlined_means hc
  cases c' with
  | literal t => cases h; exact .inl ⟨t, this, rfl⟩
  | named n =>
    simp only [Res.bind_eq_ok] at h
    obtain ⟨i, hi, h⟩ := h
    cases h; exact .inr (.inr ⟨n, i, this, hi, rfl⟩)
  | fixed s => cases h; exact .inr (.inl ⟨s, this, rfl⟩)

/-- The reading template of a leaf, case by case. -/
inductive LeafReadOf (x : Ext) (l : Leaf) (q : QName) (v : ValRead) : LeafRead → Prop where
  | whileLook {n : Name} {i : Str} (h1 : l.isVirtual = true) (h2 : l.repeats = true)
      (hn : l.definition.content = .named n) (hi : pascalIdent x n = .ok i) :
      LeafReadOf x l q v (.whileLookahead i v l.mayMiss)
  | ifLook {n : Name} {i : Str} (h1 : l.isVirtual = true) (h2 : l.repeats = false) (h3 : l.mayMiss = true)
      (hn : l.definition.content = .named n) (hi : pascalIdent x n = .ok i) :
      LeafReadOf x l q v (.ifLookahead i v)
  | plain (h1 : l.isVirtual = true) (h2 : l.repeats = false) (h3 : l.mayMiss = false) :
      LeafReadOf x l q v (.plain v)
  | whileNext (h1 : l.isVirtual = false) (h2 : l.repeats = true) : LeafReadOf x l q v (.whileNext q v l.mayMiss)
  | ifNext (h1 : l.isVirtual = false) (h2 : l.repeats = false) (h3 : l.mayMiss = true) :
      LeafReadOf x l q v (.ifNext q v)
  | tryChild (h1 : l.isVirtual = false) (h2 : l.repeats = false) (h3 : l.mayMiss = false)
      (h4 : l.isUnordered = true) : LeafReadOf x l q v (.tryChild q v)
  | tryNext (h1 : l.isVirtual = false) (h2 : l.repeats = false) (h3 : l.mayMiss = false)
      (h4 : l.isUnordered = false) : LeafReadOf x l q v (.tryNext q v)

theorem leafRead_ok {x : Ext} {S : SchemaContext} {l : Leaf} {p : Str × LeafRead}
    (h : leafRead x S l = .ok p) :
    ∃ q v, fieldIdent x l.name = .ok p.1 ∧ S.expanded l.name = .ok q ∧
      contentRead x S l.definition.content = .ok v ∧ LeafReadOf x l q v p.2 := by
  unfold leafRead at h
  simp only [Res.bind_eq_ok, Leaf.isOptional_eq, Leaf.isVec_eq, SchemaContext.qname_eq] at h
  obtain ⟨f, hf, q, hq, v, hv, h⟩ := h
  refine ⟨q, v, ?_⟩
  cases h1 : l.isVirtual <;> cases h2 : l.repeats <;> cases h3 : l.mayMiss <;>
    cases h4 : l.isUnordered <;> simp [h1, h2, h3, h4] at h
  all_goals first
    | (subst h; exact ⟨hf, hq, hv, by first
        | exact .tryNext h1 h2 h3 h4
        | exact .tryChild h1 h2 h3 h4
        | exact .ifNext h1 h2 h3
        | exact .plain h1 h2 h3
        | exact h3 ▸ .whileNext h1 h2⟩)
    | (split at h
       · next n hn =>
         rw [Res.bind_eq_ok] at h
         obtain ⟨i, hi, h⟩ := h
         cases h
         exact ⟨hf, hq, hv, by first
          | exact .ifLook h1 h2 h3 hn hi
          | exact h3 ▸ .whileLook h1 h2 hn hi⟩
       · cases h)

/-- The reading template of a variant, case by case. -/
inductive VarReadOf (x : Ext) (l : Leaf) (q : QName) (v : ValRead) : VarRead → Prop where
  | virt {n : Name} {i : Str} (h1 : l.isVirtual = true) (hn : l.definition.content = .named n)
      (hi : pascalIdent x n = .ok i) : VarReadOf x l q v (.virt i v)
  | vec (h1 : l.isVirtual = false) (h2 : l.repeats = true) : VarReadOf x l q v (.vec q v)
  | single (h1 : l.isVirtual = false) (h2 : l.repeats = false) : VarReadOf x l q v (.single q v)

theorem variantRead_ok {x : Ext} {S : SchemaContext} {l : Leaf} {p : Str × VarRead}
    (h : variantRead x S l = .ok p) :
    ∃ q v, pascalIdent x l.name = .ok p.1 ∧ S.expanded l.name = .ok q ∧
      contentRead x S l.definition.content = .ok v ∧ VarReadOf x l q v p.2 := by
  unfold variantRead at h
  simp only [Res.bind_eq_ok, Leaf.isOptional_eq, Leaf.isVec_eq, SchemaContext.qname_eq] at h
  obtain ⟨f, hf, v, hv, q, hq, h⟩ := h
  refine ⟨q, v, ?_⟩
  cases h1 : l.isVirtual <;> simp only [h1, Bool.false_eq_true, if_false, if_true] at h
  · cases h2 : l.repeats <;> simp [h2] at h <;> subst h
    · exact ⟨hf, hq, hv, .single h1 h2⟩
    · exact ⟨hf, hq, hv, .vec h1 h2⟩
  · split at h
    · next n hn =>
      rw [Res.bind_eq_ok] at h
      obtain ⟨i, hi, h⟩ := h
      cases h
      exact ⟨hf, hq, hv, .virt h1 hn hi⟩
    · cases h

end Xsd
