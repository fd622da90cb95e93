import Verif.Lemmas.ParseInv
import Verif.Spec.Repr
import Verif.Props.Namespaces
import Verif.Props.FileSample
/-!
# Names in a parsed schema (C32)
-/
namespace Xsd

/-! ## Specification -/

/-- The namespace is none, or the table has an entry for it. -/
def Namespaces.Knows (t : Namespaces) : Namespace → Prop
  | .none => True
  | .id i => ∃ d, t.getById i = some d

/-- The names in a content. -/
def LeafContent.names : LeafContent → List Name
  | .named n => [n]
  | .literal _ => []
  | .fixed _ => []

/-- The names in an element content. -/
def ElementContent.names : ElementContent → List Name
  | .leaf n d => n :: d.content.names
  | .leaves ls => ls.flatMap (fun l => l.name :: l.definition.content.names)

/-- All names in a definition: of elements, attributes, variants, enumeration values, and references to types. -/
def Root.names : Root → List Name
  | .leaf d => d.content.names
  | .enum ns => ns
  | .element d =>
    d.attributes.flatMap (fun a => a.name :: a.content.names) ++ (match d.content with | some c => c.names | none => [])
  | .choice vs _ _ => vs.flatMap (fun l => l.name :: l.definition.content.names)

/-- All namespaces that occur in a schema: of the target, the definitions' names and the names in definitions. -/
def SchemaContext.occurring (S : SchemaContext) : List Namespace :=
  S.target :: S.elements.flatMap (fun p => p.1.ns :: p.2.names.map Name.ns)

/-- The leaves of a definition that stand for groups refer to a definition. -/
def Root.GroupsNamed (r : Root) : Prop := ∀ l ∈ r.leaves, l.isVirtual = true → ∃ n, l.definition.content = .named n

/-! ## The invariant -/

theorem Namespaces.Knows.mono {t t' : Namespaces} (h : t.Extends t') {n : Namespace} (hn : t.Knows n) : t'.Knows n := by
  cases n with
  | none => trivial
  | id i => obtain ⟨d, hd⟩ := hn; exact ⟨d, h.2 i d hd⟩

theorem Namespaces.register_append (t : Namespaces) (us vs : List Str) :
    (t.register (us ++ vs)).2 = ((t.register us).2.register vs).2 := by
  induction us generalizing t with
  | nil => rfl
  | cons u us ih => exact ih _

theorem Namespaces.Reachable.getOrInsert {t : Namespaces} (h : t.Reachable) (u : Str) : (t.getOrInsert u).2.Reachable := by
  obtain ⟨us, rfl⟩ := h
  exact ⟨us ++ [u], by rw [Namespaces.register_append]; rfl⟩

theorem Namespaces.Reachable.knows {t : Namespaces} (h : t.Reachable) (u : Str) :
    (t.getOrInsert u).2.Knows (t.getOrInsert u).1 := by
  obtain ⟨n, h1, h2⟩ := t.getOrInsert_get u
  rw [h1]
  obtain ⟨p, hp⟩ := ((h.inv.getOrInsert u).agree u n).1 h2
  exact ⟨_, hp⟩

/-- The names of the definitions, and the names in them, are known, and groups are references. -/
def KnownRoots (t : Namespaces) (roots : List (Name × Root)) : Prop :=
  ∀ p ∈ roots, t.Knows p.1.ns ∧ (∀ n ∈ p.2.names, t.Knows n.ns) ∧ p.2.GroupsNamed

theorem KnownRoots.mono {t t' : Namespaces} (h : t.Extends t') {roots : List (Name × Root)} (hr : KnownRoots t roots) :
    KnownRoots t' roots := fun p hp => ⟨(hr p hp).1.mono h, fun n hn => ((hr p hp).2.1 n hn).mono h, (hr p hp).2.2⟩

theorem mem_ainsert {κ ν : Type} [DecidableEq κ] {m : List (κ × ν)} {k : κ} {v : ν} {p : κ × ν} (h : p ∈ ainsert m k v) :
    p = (k, v) ∨ p ∈ m := by
  induction m with
  | nil => exact .inl (List.mem_singleton.1 h)
  | cons q m ih =>
    unfold ainsert at h
    split at h
    · next hk =>
      rcases List.mem_cons.1 h with rfl | h
      · exact .inl (by rw [← hk])
      · exact .inr (.tail _ h)
    · rcases List.mem_cons.1 h with rfl | h
      · exact .inr (.head _)
      · rcases ih h with h | h
        · exact .inl h
        · exact .inr (.tail _ h)

theorem KnownRoots.insert {t : Namespaces} {roots : List (Name × Root)} (hr : KnownRoots t roots) {n : Name} {r : Root}
    (hn : t.Knows n.ns) (hr' : (∀ m ∈ r.names, t.Knows m.ns) ∧ r.GroupsNamed) : KnownRoots t (ainsert roots n r) := by
  intro p hp
  rcases mem_ainsert hp with rfl | hp
  · exact ⟨hn, hr'⟩
  · exact hr p hp

/-- The parts of a context that parsing a definition does not change. -/
def PCtx.SameDoc (s s' : PCtx) : Prop :=
  s'.defaultNs = s.defaultNs ∧ s'.docNss = s.docNss ∧ s'.target = s.target ∧ s'.isQualified = s.isQualified

/-- The law for namespaces. -/
def nsLaw : ParseLaw where
  I s := s.nss.Reachable ∧ s.nss.Knows s.target ∧ KnownRoots s.nss s.roots
  R s s' := s.nss.Extends s'.nss ∧ s.SameDoc s'
  Nm s n := s.nss.Knows n.ns
  Ref s _ n := s.nss.Knows n.ns
  refl _ := ⟨.refl _, rfl, rfl, rfl, rfl⟩
  trans h h' := ⟨h.1.trans h'.1, h'.2.1.trans h.2.1, h'.2.2.1.trans h.2.2.1, h'.2.2.2.1.trans h.2.2.2.1,
    h'.2.2.2.2.trans h.2.2.2.2⟩
  nm_mono h hn := hn.mono h.1
  ref_mono h hn := hn.mono h.1

theorem nsLaw_root {s : PCtx} {owner : Name} {r : Root} (h : nsLaw.RootOK s owner r) :
    (∀ n ∈ r.names, s.nss.Knows n.ns) ∧ r.GroupsNamed := by
  have hc : ∀ c : LeafContent, nsLaw.Content s owner c → ∀ n ∈ c.names, s.nss.Knows n.ns := by
    intro c hc
    cases c with
    | named n => simpa [ParseLaw.Content, LeafContent.names, nsLaw] using hc
    | literal _ => simp [LeafContent.names]
    | fixed _ => simp [LeafContent.names]
  have hl : ∀ ls : List Leaf, (∀ l ∈ ls, nsLaw.LeafOK s owner l) →
      ∀ n ∈ ls.flatMap (fun l => l.name :: l.definition.content.names), s.nss.Knows n.ns := by
    intro ls h n hn
    obtain ⟨l, hl, hn⟩ := List.mem_flatMap.1 hn
    rcases List.mem_cons.1 hn with rfl | hn
    · exact (h l hl).1
    · exact hc _ (h l hl).2.1 n hn
  cases r with
  | leaf d => exact ⟨hc _ h, nofun⟩
  | enum ns => exact ⟨h, nofun⟩
  | choice vs v docs => exact ⟨hl vs h, fun l hl => (h l hl).2.2⟩
  | element d =>
    replace h : (∀ a ∈ d.attributes, nsLaw.AttrOK s owner a) ∧ nsLaw.ElemContentOK s owner d.content := h
    constructor
    · simp only [Root.names, List.forall_mem_append]
      constructor
      · intro n hn
        obtain ⟨l, hl, hn⟩ := List.mem_flatMap.1 hn
        rcases List.mem_cons.1 hn with rfl | hn
        · exact (h.1 l hl).1
        · exact hc _ (h.1 l hl).2 n hn
      · replace h := h.2
        cases hd : d.content with
        | none => simp
        | some c =>
          rw [hd] at h
          cases c with
          | leaf n d => exact List.forall_mem_cons.2 ⟨h.1, hc _ h.2⟩
          | leaves ls => exact hl ls h
    · replace h := h.2
      intro l hl
      simp only [Root.leaves] at hl
      split at hl
      · next ls hd =>
        rw [hd] at h
        exact (h l hl).2.2
      · cases hl

theorem getTypeName_nss {a : XAttr} {s s' : PCtx} {c : LeafContent} (h : getTypeName a s = .ok (c, s')) :
    (s' = s ∧ ∀ n, c = .named n → n.ns = .none) ∨
      ∃ n u, c = .named ⟨n, (s.nss.getOrInsert u).1⟩ ∧ s' = { s with nss := (s.nss.getOrInsert u).2 } := by
  unfold getTypeName at h
  have hl : ∀ n, P.lift (literalOr n a) s = .ok (c, s') → s' = s ∧ ∀ n, c = .named n → n.ns = .none := by
    intro n hh
    rw [P.lift_ok] at hh
    refine ⟨hh.2, ?_⟩
    rintro m rfl
    have := hh.1
    unfold literalOr at this
    split at this <;> cases this
  split at h
  · split at h
    · cases h
    · split at h
      · exact .inl (hl _ h)
      · cases h; exact .inr ⟨_, _, rfl, rfl⟩
  · split at h
    · exact .inl (hl _ h)
    · cases h; exact .inl ⟨rfl, fun n hn => by cases hn; rfl⟩

theorem nsLaw_ok : nsLaw.Ok where
  typeName := by
    rintro a s c s' ⟨h1, h2, h3⟩ h
    rcases getTypeName_nss h with ⟨rfl, _⟩ | ⟨n, u, rfl, rfl⟩
    · exact ⟨⟨h1, h2, h3⟩, nsLaw.refl _⟩
    · have he := h1.inv.getOrInsert_extends u
      exact ⟨⟨h1.getOrInsert u, h2.mono he, h3.mono he⟩, he, rfl, rfl, rfl, rfl⟩
  discover := by
    rintro a s n s' p ⟨h1, h2, h3⟩ h
    have hk : s'.nss.Knows n.ns := by
      rcases getTypeName_nss h with ⟨rfl, hn⟩ | ⟨n, u, hn, rfl⟩
      · rw [hn n rfl]; trivial
      · cases hn; exact h1.knows u
    have hI : nsLaw.I s' := by
      rcases getTypeName_nss h with ⟨rfl, _⟩ | ⟨n, u, hn, rfl⟩
      · exact ⟨h1, h2, h3⟩
      · have he := h1.inv.getOrInsert_extends u
        exact ⟨h1.getOrInsert u, h2.mono he, h3.mono he⟩
    exact ⟨hI, ⟨.refl _, rfl, rfl, rfl, rfl⟩, hk, hk⟩
  node := by
    rintro s v ⟨_, h2, _⟩
    show s.nss.Knows (if s.isQualified || false then s.target else .none)
    split
    · exact h2
    · trivial
  plain := fun _ _ => trivial
  add := by
    rintro s v p r owner ⟨h1, h2, h3⟩ hr _
    have hn : s.nss.Knows (s.nodeName v false).ns := by
      show s.nss.Knows (if s.isQualified || false then s.target else .none)
      split
      · exact h2
      · trivial
    exact ⟨⟨h1, h2, h3.insert hn (nsLaw_root hr)⟩, ⟨.refl _, rfl, rfl, rfl, rfl⟩, hn⟩
  nodeName := by
    rintro s s' v ⟨_, _, _, h3, h4⟩
    unfold PCtx.nodeName
    rw [h3, h4]

/-- Everything known about the names of a parsed schema. -/
structure NamesOK (t : Namespaces) (P : PSchema) : Prop where
  reachable : P.context.namespaces.Reachable
  extends_ : t.Extends P.context.namespaces
  target : P.context.namespaces.Knows P.context.target
  roots : KnownRoots P.context.namespaces P.context.elements

theorem liftX_ok {α : Type} {r : Res XErr α} {a : α} : liftX r = .ok a ↔ r = .ok a := by
  cases r <;> simp [liftX]

theorem liftS_ok {α : Type} {r : Res SErr α} {a : α} : liftS r = .ok a ↔ r = .ok a := by
  cases r <;> simp [liftS]

/-- Successful runs of `parseItem`. -/
inductive ItemRun (x : Ext) (F : Files) (incl : Str → Namespaces → List (Name × List Name) → Res SErr PSchema) (base : Str)
    (child : Nd) (s : PCtx) : PCtx → Prop where
  | include (location schema) (hn : child.name = c!"include" ∨ child.name = c!"import")
      (hl : child.attr c!"schemaLocation" = some location)
      (h : incl (F.push base location.value) s.nss s.deps = .ok schema) :
      ItemRun x F incl base child s { schema.context.elements.foldl (fun s p => s.addRoot p.1 p.2) s with
        nss := schema.context.namespaces, deps := schema.deps }
  | definition (nameAttr root s1) (hn : ¬ (child.name = c!"include" ∨ child.name = c!"import"))
      (ha : child.attr c!"name" = some nameAttr)
      (h : parseRoot x child.fuel (child.see c!"name") ⟨nameAttr.value, s.target⟩ s = .ok (root, s1)) :
      ItemRun x F incl base child s (s1.addRoot ⟨nameAttr.value, s.target⟩ root)

theorem parseItem_run {x : Ext} {F : Files} {incl : Str → Namespaces → List (Name × List Name) → Res SErr PSchema} {base : Str}
    {child : Nd} {s s' : PCtx} (h : parseItem x F incl base child s = .ok s') : ItemRun x F incl base child s s' := by
  unfold parseItem at h
  split at h
  · next hn =>
    obtain ⟨l, h1, h⟩ := Res.bind_eq_ok.1 h
    obtain ⟨sc, h2, h⟩ := Res.bind_eq_ok.1 h
    rw [liftX_ok, tryAttr_ok] at h1
    rw [liftS_ok] at h2
    cases h
    exact .include l sc hn h1 h2
  · next hn =>
    obtain ⟨l, h1, h⟩ := Res.bind_eq_ok.1 h
    obtain ⟨p, h2, h⟩ := Res.bind_eq_ok.1 h
    rw [liftX_ok, tryAttr_ok] at h1
    rw [liftX_ok] at h2
    obtain ⟨root, s1⟩ := p
    cases h
    exact .definition l root s1 hn h1 h2

theorem foldl_addRoot_nss (l : List (Name × Root)) (s : PCtx) :
    (l.foldl (fun s p => s.addRoot p.1 p.2) s).nss = s.nss ∧ s.SameDoc (l.foldl (fun s p => s.addRoot p.1 p.2) s) := by
  induction l generalizing s with
  | nil => exact ⟨rfl, rfl, rfl, rfl, rfl⟩
  | cons p l ih => exact ih _

theorem foldl_addRoot_known {t : Namespaces} (l : List (Name × Root)) (s : PCtx) (h : KnownRoots t s.roots) (hl : KnownRoots t l) :
    KnownRoots t (l.foldl (fun s p => s.addRoot p.1 p.2) s).roots := by
  induction l generalizing s with
  | nil => exact h
  | cons p l ih =>
    exact ih _ (h.insert (hl p (by simp)).1 (hl p (by simp)).2) (fun q hq => hl q (by simp [hq]))

section
variable {x : Ext} {F : Files} {incl : Str → Namespaces → List (Name × List Name) → Res SErr PSchema}
  (hincl : ∀ path t deps P, t.Reachable → incl path t deps = .ok P → NamesOK t P)
include hincl

theorem parseItem_names {base : Str} {child : Nd} {s s' : PCtx} (hI : nsLaw.I s)
    (h : parseItem x F incl base child s = .ok s') : nsLaw.I s' ∧ nsLaw.R s s' := by
  replace h := parseItem_run h
  cases h with
  | «include» location schema hn hl h =>
    have hok := hincl _ _ _ _ hI.1 h
    have hf := foldl_addRoot_nss schema.context.elements s
    refine ⟨⟨hok.reachable, ?_, ?_⟩, hok.extends_, hf.2⟩
    · exact hf.2.2.2.1 ▸ hI.2.1.mono hok.extends_
    · exact foldl_addRoot_known _ _ (hI.2.2.mono hok.extends_) hok.roots
  | definition nameAttr root s1 hn ha h =>
    obtain ⟨h1, h2, h3⟩ := (ParseLaw.all x nsLaw_ok _).root hI (show nsLaw.Nm s ⟨nameAttr.value, s.target⟩ from hI.2.1) h
    refine ⟨⟨h1.1, h1.2.1, h1.2.2.insert ?_ (nsLaw_root h3)⟩, h2.1, h2.2⟩
    exact hI.2.1.mono h2.1

theorem parseItems_names {base : Str} {cs : List Nd} {s s' : PCtx} (hI : nsLaw.I s)
    (h : parseItems x F incl base cs s = .ok s') : nsLaw.I s' ∧ nsLaw.R s s' := by
  induction cs generalizing s with
  | nil => cases h; exact ⟨hI, nsLaw.refl _⟩
  | cons c cs ih =>
    obtain ⟨s1, h1, h2⟩ := Res.bind_eq_ok.1 h
    obtain ⟨h3, h4⟩ := parseItem_names hincl hI h1
    obtain ⟨h5, h6⟩ := ih h3 h2
    exact ⟨h5, nsLaw.trans h4 h6⟩

theorem parseSchemaRoot_names {base : Str} {root : Nd} {t : Namespaces} {deps : List (Name × List Name)} {P : PSchema}
    (ht : t.Reachable) (h : parseSchemaRoot x F incl base root t deps = .ok P) : NamesOK t P := by
  unfold parseSchemaRoot at h
  split at h
  · cases h
  · obtain ⟨s1, h1, h2⟩ := Res.bind_eq_ok.1 h
    cases h2
    have key : nsLaw.I (PCtx.new root.info ((root.attr c!"targetNamespace").map XAttr.value) t deps) ∧
        t.Extends (PCtx.new root.info ((root.attr c!"targetNamespace").map XAttr.value) t deps).nss := by
      cases (root.attr c!"targetNamespace").map XAttr.value with
      | none => exact ⟨⟨ht, trivial, nofun⟩, .refl _⟩
      | some u => exact ⟨⟨ht.getOrInsert u, ht.knows u, nofun⟩, ht.inv.getOrInsert_extends u⟩
    obtain ⟨h3, h4⟩ := parseItems_names hincl key.1 h1
    exact ⟨h3.1, key.2.trans h4.1, h3.2.1, h3.2.2⟩

theorem parseDoc_names {path : Str} {d : XDoc} {t : Namespaces} {deps : List (Name × List Name)} {P : PSchema}
    (ht : t.Reachable) (h : parseDoc x F incl path d t deps = .ok P) : NamesOK t P := by
  unfold parseDoc at h
  split at h
  · next hh => cases h; exact parseSchemaRoot_names hincl ht hh
  · cases h
  · cases h
  · cases h

end

theorem parseFileWith_names {x : Ext} {F : Files} (k : Nat) : ∀ path t deps P, t.Reachable →
    parseFileWith x F k path t deps = .ok P → NamesOK t P := by
  induction k with
  | zero => intro path t deps P _ h; cases h
  | succ k ih =>
    intro path t deps P ht h
    unfold parseFileWith at h
    split at h
    · cases h
    · cases h
    · exact parseDoc_names ih ht h

/-- C32: in a schema that was parsed, with all its included and imported files, every namespace that occurs in the target, in
the name of a definition or in a name inside a definition is in the namespace table. -/
theorem C32 (x : Ext) (F : Files) (k : Nat) (path : Str) (P : PSchema) (h : parseFile x F k path = .ok P) :
    ∀ n ∈ P.context.occurring, P.context.namespaces.Knows n := by
  have hok := parseFileWith_names k path _ _ P ⟨[], rfl⟩ h
  intro n hn
  unfold SchemaContext.occurring at hn
  rcases List.mem_cons.1 hn with rfl | hn
  · exact hok.target
  · obtain ⟨p, hp, hn⟩ := List.mem_flatMap.1 hn
    rcases List.mem_cons.1 hn with rfl | hn
    · exact (hok.roots p hp).1
    · obtain ⟨m, hm, rfl⟩ := List.mem_map.1 hn
      exact (hok.roots p hp).2.1 m hm

/-- The namespace table of a parsed schema was made by registering URIs, so C31 applies to it. -/
theorem C32_table (x : Ext) (F : Files) (k : Nat) (path : Str) (P : PSchema) (h : parseFile x F k path = .ok P) :
    ∃ us, P.context.namespaces = (Namespaces.empty.register us).2 :=
  (parseFileWith_names k path _ _ P ⟨[], rfl⟩ h).reachable

/-- C32: so every name with such a namespace has an expanded name and a name to write, and the declarations of the schema can be
made: the generator never panics for an id without an entry. -/
theorem C32_no_panic (x : Ext) (F : Files) (k : Nat) (path : Str) (P : PSchema) (h : parseFile x F k path = .ok P) :
    (∀ n : Name, n.ns ∈ P.context.occurring → (∃ q, P.context.qname n = .ok q) ∧ ∃ w, P.context.xmlName n = .ok w) ∧
    ∃ N, schemaNss P.context = .ok N := by
  have hk := C32 x F k path P h
  constructor
  · rintro ⟨nm, ns⟩ hn
    have := hk ns hn
    cases ns with
    | none => exact ⟨⟨_, rfl⟩, ⟨_, rfl⟩⟩
    | id i =>
      obtain ⟨d, hd⟩ := this
      constructor
      · exact ⟨⟨nm, some d.uri⟩, by simp [SchemaContext.qname, hd]⟩
      · by_cases hq : (P.context.isQualified && decide (Namespace.id i = P.context.target)) = true
        · exact ⟨nm, by simp only [SchemaContext.xmlName]; rw [if_pos hq]⟩
        · exact ⟨d.pfx ++ ':' :: nm, by simp only [SchemaContext.xmlName]; rw [if_neg hq, hd]⟩
  · have := hk P.context.target (by simp [SchemaContext.occurring])
    unfold schemaNss
    cases hq : P.context.isQualified with
    | false => exact ⟨_, rfl⟩
    | true =>
      cases ht : P.context.target with
      | none => exact ⟨_, rfl⟩
      | id i =>
        rw [ht] at this
        obtain ⟨d, hd⟩ := this
        simp only [hd]
        exact ⟨_, rfl⟩

/-- Two files: namespaces of the target, of local elements, of references into the other file, and none. -/
example : ∃ P, parseFile sampleExt SchemaSample.files 2 c!"main.xsd" = .ok P ∧
    P.context.occurring = [.id 1, .id 2, .none, .id 2, .none, .id 2, .none, .none, .id 1, .id 1, .id 1, .none, .none,
      .id 1, .id 1, .id 2, .id 1, .id 1] := by
  refine ⟨SchemaSample.parsedSchema, ?_, ?_⟩ <;> decide +kernel

end Xsd
