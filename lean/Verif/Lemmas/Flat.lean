import Verif.Props.Generable
import Verif.Spec.Finite
import Verif.Spec.Write
import Verif.Props.Enums
import Verif.Props.Compiles
import Verif.Props.SchemaNames
import Verif.Props.Types
import Verif.Props.RoundTrip
/-!
# Schemas without groups: records of elements and attributes
-/
namespace Xsd

/-- Enumerations and records: what elements can be aliases of. -/
def Root.Structured : Root → Prop
  | .enum _ => True
  | .element _ => True
  | _ => False

/-- What the names of elements and types need to be written. -/
structure WritableName (S : SchemaContext) (n : Name) : Prop where
  plain : n.Plain
  known : S.namespaces.Knows n.ns
  dflt : n.ns = .none → ¬ (S.isQualified = true ∧ ∃ id, S.target = .id id)

/-- A record. -/
structure FlatElement (x : Ext) (S : SchemaContext) (e : ElementDef) : Prop where
  tagged : e.isVirtual = false
  content : match e.content with
    | none => True
    | some (.leaf _ d) => ∀ m, d.content ≠ .named m
    | some (.leaves ls) => ∀ l ∈ ls, l.isVirtual = false ∧ WritableName S l.name ∧
        ∀ m, l.definition.content = .named m → ∃ r, S.get m = some r ∧ ∀ d s, r = .leaf d → d.content ≠ .fixed s
  attrs : ∀ a ∈ e.attributes, a.name.ns = .none ∧ ':' ∉ a.name.name ∧ a.name.name ≠ c!"xmlns" ∧
    ∀ m, a.content = .named m → (∃ d t, S.get m = some (.leaf d) ∧ d.content = .literal t ∧ t.prim = .string) ∨
      ∃ vs, S.get m = some (.enum vs)
  fields : (e.fieldNames.map (fun m => x.snake m.name)).Nodup ∧
    ∀ m ∈ e.fieldNames, Usable x (x.snake m.name) ∧ x.snake m.name ∉ missedKeywords

/-- A schema of records, simple types, enumerations and elements. -/
structure FlatSchema (x : Ext) (S : SchemaContext) : Prop where
  keys : (S.elements.map Prod.fst).Nodup
  table : S.namespaces.Reachable
  uris : S.namespaces.NonEmptyUris
  target : S.namespaces.Knows S.target
  names : ∀ n r, S.get n = some r → WritableName S n
  unique : ∀ n m, (S.get n).isSome = true → (S.get m).isSome = true → x.pascal n.name = x.pascal m.name → n = m
  types : ∀ n r, S.get n = some r → Usable x (x.pascal n.name) ∧ x.pascal n.name ∉ rustKeywords ∧ x.pascal n.name ∉ preludeTypes
  newtypes : ∀ n d, S.get n = some (.leaf d) → x.pascal n.name ∉ preludeConstructors ∧
    ∀ m, d.content = .named m → ∃ r, S.get m = some r ∧ r.Structured
  enums : ∀ n vs, S.get n = some (.enum vs) → vs ≠ [] ∧ (vs.map Name.name).Nodup ∧
    ∀ v ∈ vs, enumBase x v.name = [] ∨ (x.identOk (enumBase x v.name) = true ∧ enumBase x v.name ∉ rustKeywords)
  choices : ∀ n vs b d, S.get n ≠ some (.choice vs b d)
  elements : ∀ n e, S.get n = some (.element e) → FlatElement x S e
  sized : WellFounded (fun m n => HoldsA S n m)

/-- `Variant1`, `Variant2`, … are identifiers. -/
def Ext.VariantLaw (x : Ext) : Prop := ∀ n, x.identOk (c!"Variant" ++ showNat n) = true

section
variable {x : Ext} {S : SchemaContext}

theorem enumPick_word {used : List Str} {f cnt cnt' : Nat} {v v' : Str} (h : enumPick used f cnt v = some (v', cnt')) :
    (v' = v ∧ v ≠ []) ∨ ∃ n, v' = c!"Variant" ++ showNat n := by
  induction f generalizing cnt v with
  | zero => cases h
  | succ f ih =>
    unfold enumPick at h
    split at h
    · rcases ih h with ⟨rfl, _⟩ | h
      · exact .inr ⟨_, rfl⟩
      · exact .inr h
    · next hn => cases h; exact .inl ⟨rfl, fun h => hn (.inl h)⟩

theorem escapeEnumFrom_words (m : List (Str × Str)) (cnt : Nat) (ns : List Name) {tab : List (Str × Str)}
    (h : escapeEnumFrom x m cnt ns = .ok tab) {p : Str × Str} (hp : p ∈ tab) : p ∈ m ∨
    (∃ n ∈ ns, p.1 = enumBase x n.name ∧ enumBase x n.name ≠ []) ∨ ∃ n, p.1 = c!"Variant" ++ showNat n := by
  induction ns generalizing m cnt with
  | nil => cases h; exact .inl hp
  | cons n ns ih =>
    unfold escapeEnumFrom at h
    split at h
    · next v c hv =>
      rcases ih _ _ h with h1 | ⟨m, hm, h1⟩ | h1
      · rcases mem_ainsert h1 with h2 | h2
        · exact .inr ((enumPick_word hv).elim (fun h3 => .inl ⟨n, .head _, by rw [h2]; exact h3⟩) (fun h3 => .inr (by rw [h2]; exact h3)))
        · exact .inl h2
      · exact .inr (.inl ⟨m, .tail _ hm, h1⟩)
      · exact .inr (.inr h1)
    · cases h

theorem variant_not_keyword (n : Nat) : c!"Variant" ++ showNat n ∉ rustKeywords := by
  intro h
  have : ∀ k ∈ rustKeywords, k.take 7 ≠ c!"Variant" := by decide +kernel
  exact this _ h (by simp)

/-- The variants of an enumeration of a flat schema. -/
theorem FlatSchema.variants (hv : x.VariantLaw) (B : FlatSchema x S) {n : Name} {vs : List Name} (h : S.get n = some (.enum vs))
    {tab : List (Str × Str)} (ht : escapeEnumNames x vs = .ok tab) {p : Str × Str} (hp : p ∈ tab) :
    x.identOk p.1 = true ∧ p.1 ∉ rustKeywords := by
  obtain ⟨_, _, h3⟩ := B.enums n vs h
  rcases escapeEnumFrom_words [] 0 vs ht hp with h1 | ⟨m, hm, h1, h2⟩ | ⟨m, h1⟩
  · cases h1
  · rw [h1]
    exact (h3 m hm).resolve_left h2
  · rw [h1]
    exact ⟨hv m, variant_not_keyword m⟩

theorem structured_means {m : Name} {r : Root} (h : S.get m = some r) (hr : r.Structured) : Means S (.named m) (.named m) :=
  .name fun d hd => by rw [h] at hd; cases hd; exact hr

theorem Means.named_source {c : LeafContent} {m : Name} (h : Means S c (.named m)) : ∃ k, c = .named k := by
  cases h with
  | alias _ _ => exact ⟨_, rfl⟩
  | name _ => exact ⟨_, rfl⟩

/-- What a content can mean. -/
theorem FlatSchema.named (B : FlatSchema x S) {c : LeafContent} {m : Name} (hm : Means S c (.named m))
    (hc : ∀ m, c = .named m → (S.get m).isSome = true) :
    ∃ r, S.get m = some r ∧ r.Structured := by
  cases hm with
  | name h =>
    obtain ⟨r, hr⟩ := Option.isSome_iff_exists.1 (hc _ rfl)
    refine ⟨r, hr, ?_⟩
    cases r with
    | leaf d => exact absurd hr (h d)
    | enum _ => trivial
    | element _ => trivial
    | choice _ _ _ => exact absurd hr (B.choices _ _ _ _)
  | @alias n d _ h hc' =>
    obtain ⟨dc, rs, docs⟩ := d
    have := (B.newtypes n _ h).2
    cases hc' with
    | name h' => exact this _ rfl
    | alias h' _ =>
      obtain ⟨r, hr, hs⟩ := this _ rfl
      rw [h'] at hr
      cases hr
      exact hs.elim

/-- The references of a definition are defined. -/
theorem FlatSchema.defined (B : FlatSchema x S) {n : Name} {r : Root} (h : S.get n = some r) {c : LeafContent} (hc : c ∈ r.allContents)
    {m : Name} (hm : c = .named m) : (S.get m).isSome = true := by
  subst hm
  cases r with
  | leaf d =>
    simp only [Root.allContents, List.mem_singleton] at hc
    obtain ⟨r, hr, _⟩ := (B.newtypes n d h).2 m hc.symm
    rw [hr]; rfl
  | enum vs => cases hc
  | choice vs b d => exact absurd h (B.choices _ _ _ _)
  | element e =>
    have E := B.elements n e h
    obtain ⟨as, ct, v, docs⟩ := e
    rcases List.mem_append.1 hc with hc | hc
    · have hct := E.content
      cases ct with
      | none => cases hc
      | some ct =>
        cases ct with
        | leaf f d =>
          simp only [List.mem_singleton] at hc
          exact absurd hc.symm (hct m)
        | leaves ls =>
          obtain ⟨l, hl, hlm⟩ := List.mem_map.1 hc
          obtain ⟨r, hr, _⟩ := (hct l hl).2.2 m hlm
          rw [hr]; rfl
    · obtain ⟨a, ha, ham⟩ := List.mem_map.1 hc
      rcases (E.attrs a ha).2.2.2 m ham with ⟨d, _, hd, _⟩ | ⟨vs, hd⟩ <;> rw [hd] <;> rfl

theorem FlatSchema.acyclic (B : FlatSchema x S) (n : Name) : ¬ S.Aliases n n := by
  have key : ∀ a b, S.AliasOf a b → ∀ c, ¬ S.AliasOf b c := by
    rintro a b ⟨d, hd, hdb⟩ c ⟨d', hd', _⟩
    obtain ⟨r, hr, hs⟩ := (B.newtypes a d hd).2 b hdb
    rw [hd'] at hr
    cases hr
    exact hs
  have : ∀ a b, S.Aliases a b → S.AliasOf a b := by
    intro a b h
    induction h with
    | one h => exact h
    | step h _ ih => exact absurd ih (key _ _ h _)
  intro h
  exact key n n (this _ _ h) n (this _ _ h)

theorem FlatSchema.generable (hv : x.VariantLaw) (B : FlatSchema x S) : Generable x S where
  types n r h := (B.types n r h).1
  refs n r h c hc m hm := by
    obtain ⟨r', hr', _⟩ := B.named hm (fun m => B.defined h hc)
    exact (B.types m r' hr').1
  fields n e h m hm := ((B.elements n e h).fields.2 m hm).1
  choices n vs b d h := absurd h (B.choices _ _ _ _)
  enums n vs h tab ht p hp := (B.variants hv h ht hp).1
  acyclic := B.acyclic

theorem FlatSchema.buildable (hv : x.VariantLaw) (B : FlatSchema x S) : Buildable x S where
  unique := B.unique
  closed n r h c hc m hm := by
    obtain ⟨r', hr', _⟩ := B.named hm (fun m => B.defined h hc)
    rw [hr']; rfl
  types n r h := (B.types n r h).2
  newtypes n d h := (B.newtypes n d h).1
  fields n e h := ⟨(B.elements n e h).fields.1, fun m hm => ((B.elements n e h).fields.2 m hm).2⟩
  attrs n e h a ha := by
    have hA := ((B.elements n e h).attrs a ha).2.2.2
    cases hc : a.content with
    | literal t => trivial
    | fixed s => trivial
    | named m =>
      rcases hA m hc with ⟨⟨dc, rs, docs⟩, t, hd, rfl, hp⟩ | ⟨vs, hd⟩
      · exact ⟨_, .alias hd (.literal t), .inl ⟨t, rfl, hp⟩⟩
      · exact ⟨_, structured_means hd trivial, .inr ⟨m, vs, rfl, hd⟩⟩
  choices n vs b d h := absurd h (B.choices _ _ _ _)
  enums n vs h := ⟨(B.enums n vs h).1, fun tab ht p hp => (B.variants hv h ht hp).2⟩
  sized := B.sized

theorem FlatSchema.variantsTyped (B : FlatSchema x S) : VariantsTyped S :=
  fun _ _ _ _ h => absurd h (B.choices _ _ _ _)

theorem FlatSchema.noVirtual (B : FlatSchema x S) {n : Name} {r : Root} (h : S.get n = some r) {l : Leaf} (hl : l ∈ r.leaves) :
    l.isVirtual = false := by
  cases r with
  | leaf d => cases hl
  | enum vs => cases hl
  | choice vs b d => exact absurd h (B.choices _ _ _ _)
  | element e =>
    have hct := (B.elements n e h).content
    obtain ⟨as, ct, v, docs⟩ := e
    cases ct with
    | none => cases hl
    | some ct =>
      cases ct with
      | leaf f d => cases hl
      | leaves ls => exact (hct l hl).1

theorem FlatSchema.groups (B : FlatSchema x S) : GroupsAreGroups x S := fun n r h l hl hv => by
  rw [B.noVirtual h hl] at hv; cases hv

theorem FlatSchema.finite (B : FlatSchema x S) : FiniteTypes S := by
  have key : ∀ n m, Contains S n m → (∃ d, S.get n = some (.leaf d)) ∧ ∃ r, S.get m = some r ∧ r.Structured := by
    intro n m h
    cases h with
    | simple h hm => exact ⟨⟨_, h⟩, B.named hm (fun m hd => B.defined h (by simp [Root.allContents]) hd)⟩
    | base h hc hm =>
      have hct := (B.elements n _ h).content
      rw [hc] at hct
      obtain ⟨k, hk⟩ := hm.named_source
      exact absurd hk (hct k)
    | group h hl hv => rw [B.noVirtual h hl] at hv; cases hv
  refine ⟨fun n => ⟨n, fun m hm => ⟨m, fun k hk => ?_⟩⟩⟩
  obtain ⟨_, r, hr, hs⟩ := key _ _ hm
  obtain ⟨⟨d, hd⟩, _⟩ := key _ _ hk
  rw [hd] at hr
  cases hr
  exact hs.elim

/-! ## Reading with one element of lookahead -/

/-- What a content is at the end of the chain. -/
theorem FlatSchema.inlined (B : FlatSchema x S) {c : LeafContent} (hc : ∀ m, c = .named m → (S.get m).isSome = true) :
    ∃ c', Xsd.inlined S c = .ok c' ∧ Means S c c' ∧ ∀ m, c' = .named m → ∃ r, S.get m = some r ∧ r.Structured := by
  obtain ⟨c', h, _⟩ := C48_terminates_partial S B.acyclic c
  have hm := inlined_means h
  exact ⟨c', h, hm, fun m hc' => B.named (hc' ▸ hm) hc⟩

/-- The names of all elements in records. -/
def SchemaContext.leafNames (S : SchemaContext) : List QName := S.elements.flatMap (fun p => p.2.leaves.flatMap (Leaf.qn S))

def flatCert (S : SchemaContext) : Cert := ⟨fun _ => S.leafNames, fun _ => S.leafNames, fun _ => true⟩

theorem mem_leaf_qn {l : Leaf} {q : QName} (h : q ∈ l.qn S) : q.loc = l.name.name := by
  unfold Leaf.qn at h
  unfold SchemaContext.expanded at h
  split at h
  · next he =>
    simp only [List.mem_singleton] at h
    subst h
    split at he
    · cases he; rfl
    · cases he
  · cases h

theorem sub_self (a : List QName) : sub a a = true := by
  simp [sub, List.all_eq_true]

theorem sub_of {a b : List QName} (h : ∀ q ∈ a, q ∈ b) : sub a b = true := by
  simp only [sub, List.all_eq_true, List.contains_iff_mem]
  exact h

theorem flat_content (B : FlatSchema x S) (n : Name) {c : LeafContent} (hc : ∀ m, c = .named m → (S.get m).isSome = true) :
    contentDet S (flatCert S) n c = true := by
  obtain ⟨c', h, _, _⟩ := B.inlined hc
  unfold contentDet
  rw [h]
  cases c' with
  | literal t => rfl
  | fixed s => rfl
  | named m => simp [flatCert, sub_self]

theorem flat_first (C : Cert) {ls : List Leaf} (hv : ∀ l ∈ ls, l.isVirtual = false) {q : QName} (h : q ∈ listFirst S C ls) :
    ∃ l ∈ ls, q ∈ l.qn S := by
  induction ls with
  | nil => cases h
  | cons l ls ih =>
    unfold listFirst at h
    rcases List.mem_append.1 h with h | h
    · refine ⟨l, .head _, ?_⟩
      unfold leafFirst at h
      rw [if_neg (by simp [hv l])] at h
      exact h
    · split at h
      · obtain ⟨l', hl', hq⟩ := ih (fun l hl => hv l (.tail _ hl)) h
        exact ⟨l', .tail _ hl', hq⟩
      · cases h

theorem flat_leafStop (C : Cert) {l : Leaf} (hv : l.isVirtual = false) {q : QName} (h : q ∈ leafStop x S C l) : q ∈ l.qn S := by
  unfold leafStop at h
  rw [hv] at h
  simp only [Bool.false_eq_true, if_false, List.append_nil] at h
  split at h
  · unfold leafLook at h
    rw [hv] at h
    simpa using h
  · cases h

theorem flat_stop (C : Cert) {ls : List Leaf} (hv : ∀ l ∈ ls, l.isVirtual = false) {q : QName} (h : q ∈ listStop x S C ls) :
    ∃ l ∈ ls, q ∈ l.qn S := by
  induction ls with
  | nil => cases h
  | cons l ls ih =>
    unfold listStop at h
    rcases List.mem_append.1 h with h | h
    · obtain ⟨l', hl', hq⟩ := ih (fun l hl => hv l (.tail _ hl)) h
      exact ⟨l', .tail _ hl', hq⟩
    · split at h
      · exact ⟨l, .head _, flat_leafStop C (hv l (.head _)) h⟩
      · cases h

theorem flat_list (C : Cert) {ls : List Leaf} (hv : ∀ l ∈ ls, l.isVirtual = false) (hn : (ls.map (fun l => l.name.name)).Nodup) :
    listDet x S C ls = true := by
  induction ls with
  | nil => rfl
  | cons l ls ih =>
    unfold listDet
    simp only [List.map_cons, List.nodup_cons] at hn
    have hl := hv l (.head _)
    have hv' : ∀ l ∈ ls, l.isVirtual = false := fun l hl => hv l (.tail _ hl)
    simp only [Bool.and_eq_true]
    refine ⟨⟨?_, ?_⟩, ih hv' hn.2⟩
    · unfold leafDet
      rw [if_neg (by simp [hl])]
    · unfold disj
      simp only [List.all_eq_true, Bool.not_eq_true']
      intro q hq
      rw [Bool.eq_false_iff]
      intro hq'
      rw [List.contains_iff_mem] at hq'
      obtain ⟨l', hl', hql⟩ := flat_first C hv' hq'
      have h1 := mem_leaf_qn (flat_leafStop C hl hq)
      have h2 := mem_leaf_qn hql
      exact hn.1 (List.mem_map.2 ⟨l', hl', by rw [← h2, h1]⟩)

theorem nodup_of_map_nodup {α β γ : Type} {f : α → β} {g : α → γ} {l : List α} (h : (l.map f).Nodup)
    (hfg : ∀ a ∈ l, ∀ b ∈ l, g a = g b → f a = f b) : (l.map g).Nodup := by
  unfold List.Nodup at *
  rw [List.pairwise_map] at *
  exact h.imp_of_mem fun ha hb hab he => hab (hfg _ ha _ hb he)

theorem FlatSchema.deterministic (B : FlatSchema x S) : Deterministic x S := by
  refine ⟨flatCert S, ?_⟩
  unfold detOK
  rw [List.all_eq_true]
  rintro ⟨n, r⟩ hp
  have hg : S.get n = some r := alookup_of_mem B.keys hp
  have hall : ∀ l ∈ r.leaves, ∀ q ∈ l.qn S, q ∈ S.leafNames := fun l hl q hq =>
    List.mem_flatMap.2 ⟨_, hp, List.mem_flatMap.2 ⟨l, hl, hq⟩⟩
  have hvirt : ∀ l ∈ r.leaves, l.isVirtual = false := fun l hl => B.noVirtual hg hl
  cases r with
  | leaf d => exact flat_content B n fun m hm => B.defined hg (c := d.content) (by simp [Root.allContents]) hm
  | enum vs =>
    obtain ⟨tab, h1, h2, _⟩ := C25_variants (x := x) vs
    simp only [rootDet, h1, h2, (B.enums n vs hg).2.1, flatCert]
    rfl
  | choice vs b d => exact absurd hg (B.choices _ _ _ _)
  | element e =>
    have E := B.elements n e hg
    have hd := fun c hc m hm => B.defined hg (c := c) hc (m := m) hm
    obtain ⟨as, ct, v, docs⟩ := e
    cases ct with
    | none => rfl
    | some ct =>
      cases ct with
      | leaf f d => exact flat_content B n fun m hm => hd d.content (by simp [Root.allContents]) m hm
      | leaves ls =>
        simp only [rootDet, Bool.and_eq_true]
        refine ⟨⟨⟨flat_list _ hvirt ?_, ?_⟩, ?_⟩, by simp [flatCert]⟩
        · have := E.fields.1
          simp only [ElementDef.fieldNames, List.map_append, List.map_map] at this
          exact nodup_of_map_nodup (List.nodup_append.1 this).1 fun a _ b _ hab => congrArg x.snake hab
        · refine sub_of fun q hq => ?_
          obtain ⟨l, hl, hql⟩ := flat_first _ hvirt hq
          exact hall l hl q hql
        · refine sub_of fun q hq => ?_
          obtain ⟨l, hl, hql⟩ := flat_stop _ hvirt hq
          exact hall l hl q hql

/-! ## Writing -/

/-- The attributes of a record. -/
def SchemaContext.ownAttrs (S : SchemaContext) (n : Name) : List Str :=
  match S.get n with
  | some (.element e) => e.attributes.map (fun a => a.name.name)
  | _ => []

def flatW (S : SchemaContext) : WCert where
  attrs n := match S.get n with
    | some (.leaf d) => (match Xsd.inlined S d.content with
      | .ok (.named m) => S.ownAttrs m
      | _ => [])
    | _ => S.ownAttrs n
  seg _ := false

theorem flat_tagged (B : FlatSchema x S) {n : Name} {r : Root} (h : S.get n = some r) : tagged S n = true := by
  unfold tagged
  rw [h]
  cases r with
  | leaf d => rfl
  | enum vs => rfl
  | element e => simp [Root.isVirtual, (B.elements n e h).tagged]
  | choice vs b d => exact absurd h (B.choices _ _ _ _)

theorem schemaNss_uris (ht : S.namespaces.Knows S.target) (hr : S.namespaces.Reachable) (hu : S.namespaces.NonEmptyUris) :
    ∃ N, schemaNss S = .ok N ∧ ∀ b ∈ N, b.2 ≠ [] := by
  have hrest : ∀ b ∈ S.namespaces.byId.filterMap (fun (p : Nat × NsDef) =>
      if S.isQualified && decide (Namespace.id p.1 = S.target) then none else some (p.2.pfx, p.2.uri)), b.2 ≠ [] := by
    intro b hb
    obtain ⟨⟨i, d⟩, hp, hf⟩ := List.mem_filterMap.1 hb
    have hd : S.namespaces.getById i = some d := alookup_of_mem hr.inv.ids hp
    split at hf
    · cases hf
    · cases hf; exact hu _ _ hd
  unfold schemaNss
  cases hq : S.isQualified with
  | false => rw [hq] at hrest; exact ⟨_, rfl, hrest⟩
  | true =>
    cases hT : S.target with
    | none => rw [hq, hT] at hrest; exact ⟨_, rfl, hrest⟩
    | id i =>
      rw [hT] at ht
      obtain ⟨d, hd⟩ := ht
      simp only [hd]
      refine ⟨_, rfl, fun b hb => ?_⟩
      rcases List.mem_append.1 hb with hb | hb
      · simp only [List.mem_singleton] at hb
        subst hb
        exact hu _ _ hd
      · rw [hq, hT] at hrest
        exact hrest b hb

theorem WritableName.resolves (hr : S.namespaces.Reachable) (hu : S.namespaces.NonEmptyUris) {N : List (Str × Str)} (hN : schemaNss S = .ok N)
    {n : Name} (h : WritableName S n) : nameOK N (S.xmlName n) (S.expanded n) = true := by
  obtain ⟨w, q, h1, h2, h3⟩ := C27_name_resolves_partial hr hu hN h.plain h.dflt (by
    intro id hid
    have := h.known
    rw [hid] at this
    obtain ⟨d, hd⟩ := this
    rw [hd]; rfl)
  simp [nameOK, h1, h2, h3]

theorem flat_ownAttrs (B : FlatSchema x S) (n : Name) : (S.ownAttrs n).Nodup := by
  unfold SchemaContext.ownAttrs
  split
  · next e h =>
    have := (B.elements n e h).fields.1
    simp only [ElementDef.fieldNames, List.map_append, List.map_map] at this
    exact nodup_of_map_nodup (List.nodup_append.1 this).2.1 fun a _ b _ hab => congrArg x.snake hab
  · exact List.nodup_nil

theorem flat_attrs_nodup (B : FlatSchema x S) (n : Name) : ((flatW S).attrs n).Nodup := by
  simp only [flatW]
  split
  · split
    · exact flat_ownAttrs B _
    · exact List.nodup_nil
  · exact flat_ownAttrs B _

theorem flat_chain (B : FlatSchema x S) {d : LeafDef} (hc : ∀ m, d.content = .named m → (S.get m).isSome = true) :
    chainAttrs S (flatW S) d.content = match Xsd.inlined S d.content with
      | .ok (.named m) => S.ownAttrs m
      | _ => [] := by
  obtain ⟨c', h, hm, hs⟩ := B.inlined hc
  unfold chainAttrs
  rw [h]
  obtain ⟨dc, rs, docs⟩ := d
  cases dc with
  | named k =>
    cases c' with
    | named m =>
      obtain ⟨r, hr, hs⟩ := hs m rfl
      simp only [flatW, hr]
      cases r <;> first | exact hs.elim | rfl
    | _ => rfl
  | literal t => cases hm; rfl
  | fixed s => cases hm; rfl

theorem escape_injective (hx : x.NameLaws) {e : ElementDef} (hu : ∀ m ∈ e.fieldNames, Usable x (x.snake m.name))
    (hn : (e.fieldNames.map (fun m => x.snake m.name)).Nodup) : (fieldIdents x e).Nodup := by
  have he : fieldIdents x e = e.fieldNames.map (fieldIdent x) := by
    unfold fieldIdents ElementDef.fieldNames
    rcases e.content with _ | ⟨_ | _⟩ <;> simp [Function.comp_def]
  rw [he]
  refine nodup_of_map_nodup hn fun a ha b hb hab => ?_
  obtain ⟨i, hi⟩ := (Good.escapeIdent_iff x).2 (hu a ha)
  have hi : fieldIdent x a = .ok i := hi
  obtain ⟨h1, h2⟩ := fieldIdent_eq hi
  rw [hab] at hi
  obtain ⟨h3, h4⟩ := fieldIdent_eq hi
  exact fieldOf_inj hx h2 h4 (h1 ▸ h3)

theorem flat_leafOK (B : FlatSchema x S) {N : List (Str × Str)} (hN : schemaNss S = .ok N) {l : Leaf} (hv : l.isVirtual = false)
    (hw : WritableName S l.name)
    (hd : ∀ m, l.definition.content = .named m → ∃ r, S.get m = some r ∧ ∀ d s, r = .leaf d → d.content ≠ .fixed s) :
    leafOK S (flatW S) N l = true := by
  unfold leafOK
  rw [if_neg (by simp [hv]), hw.resolves B.table B.uris hN, Bool.true_and]
  obtain ⟨c', h, hm, hs⟩ := B.inlined (c := l.definition.content) (fun m hm => by obtain ⟨r, hr, _⟩ := hd m hm; rw [hr]; rfl)
  rw [h]
  cases c' with
  | literal t => rfl
  | named m =>
    obtain ⟨r, hr, _⟩ := hs m rfl
    exact flat_tagged B hr
  | fixed s =>
    obtain ⟨nm, ⟨dc, rs, docs⟩, iv, un, mn, mx⟩ := l
    cases hm with
    | fixed s => rfl
    | @alias k d _ hg hc =>
      obtain ⟨r, hr, hf⟩ := hd k rfl
      rw [hg] at hr
      cases hr
      have h1 := hf d s rfl
      have h2 := (B.newtypes k d hg).2
      obtain ⟨dc, rs, docs⟩ := d
      cases hc with
      | fixed s => exact absurd rfl h1
      | @alias k' d' _ hg' hc' =>
        obtain ⟨r, hr, hs⟩ := h2 k' rfl
        rw [hg'] at hr
        cases hr
        exact hs.elim

theorem FlatSchema.faithful (hx : x.NameLaws) (B : FlatSchema x S) : Faithful x S := by
  refine ⟨flatW S, ?_⟩
  obtain ⟨N, hN, hne⟩ := schemaNss_uris B.target B.table B.uris
  unfold writeOK
  rw [hN]
  simp only [Bool.and_eq_true, List.all_eq_true]
  refine ⟨?_, ?_⟩
  · unfold nssOK
    simp only [Bool.and_eq_true, decide_eq_true_eq, List.all_eq_true, bne_iff_ne]
    exact ⟨(schemaNss_spec B.table hN).2.2.2, hne⟩
  rintro ⟨n, r⟩ hp
  have hg : S.get n = some r := alookup_of_mem B.keys hp
  have hd := fun c hc m hm => B.defined hg (c := c) hc (m := m) hm
  unfold rootOK
  simp only [Bool.and_eq_true, decide_eq_true_eq]
  refine ⟨flat_attrs_nodup B n, ?_⟩
  cases r with
  | leaf d =>
    simp only [Bool.and_eq_true, decide_eq_true_eq]
    refine ⟨⟨?_, ?_⟩, rfl⟩
    · unfold contentOK
      split
      · next m hm =>
        obtain ⟨c', h, hmn, hs⟩ := B.inlined (c := d.content) (hd _ (by simp [Root.allContents]))
        rw [h]
        obtain ⟨r, hr, hst⟩ := (B.newtypes n d hg).2 m hm
        have h1 := structured_means hr hst
        rw [hm] at hmn
        have := h1.functional hmn
        subst this
        exact flat_tagged B hr
      · rfl
    · rw [flat_chain B (hd _ (by simp [Root.allContents]))]
      simp only [flatW, hg]
  | enum vs =>
    simp only [Bool.and_eq_true, decide_eq_true_eq]
    refine ⟨?_, rfl⟩
    simp only [flatW, hg, SchemaContext.ownAttrs]
  | choice vs b d => exact absurd hg (B.choices _ _ _ _)
  | element e =>
    have E := B.elements n e hg
    have hW : (flatW S).attrs n = e.attributes.map (fun a => a.name.name) := by simp only [flatW, hg, SchemaContext.ownAttrs]
    simp only [Bool.and_eq_true, decide_eq_true_eq, List.all_eq_true]
    refine ⟨⟨⟨?_, escape_injective hx (fun m hm => (E.fields.2 m hm).1) E.fields.1⟩, ?_⟩, rfl⟩
    · intro a ha
      obtain ⟨h1, h2, h3, h4⟩ := E.attrs a ha
      unfold attrOK
      simp only [Bool.and_eq_true, decide_eq_true_eq, bne_iff_ne]
      refine ⟨⟨⟨by simp [SchemaContext.xmlName, h1], by rw [splitColon_none h2]; rfl⟩, h3⟩, ?_⟩
      split
      · next m hm =>
        obtain ⟨c', h, hmn, _⟩ := B.inlined (c := a.content)
          (hd _ (List.mem_append.2 (.inr (List.mem_map.2 ⟨a, ha, rfl⟩))))
        rw [h]
        rw [hm] at hmn
        rcases h4 m hm with ⟨⟨dc, rs, docs⟩, t, hd, rfl, hp⟩ | ⟨vs, hd⟩
        · have := hmn.functional (.alias hd (.literal t))
          subst this
          simp [hp]
        · have := hmn.functional (structured_means hd trivial)
          subst this
          simp [isEnum, hd]
      · rfl
    · have hct := E.content
      cases hc : e.content with
      | none => simpa using hW
      | some ct =>
        rw [hc] at hct
        cases ct with
        | leaf f d =>
          simp only [Bool.and_eq_true, decide_eq_true_eq]
          obtain ⟨dc, rs, docs⟩ := d
          cases dc with
          | named m => exact absurd rfl (hct m)
          | literal t => exact ⟨rfl, by rw [hW]; simp [chainAttrs]⟩
          | fixed s => exact ⟨rfl, by rw [hW]; simp [chainAttrs]⟩
        | leaves ls =>
          simp only [Bool.and_eq_true, decide_eq_true_eq, List.all_eq_true]
          exact ⟨fun l hl => flat_leafOK B hN (hct l hl).1 (hct l hl).2.1 (hct l hl).2.2, hW⟩

theorem FlatSchema.docType (B : FlatSchema x S) {n : Name} (h : (S.get n).isSome = true) : DocType S n := by
  obtain ⟨r, hr⟩ := Option.isSome_iff_exists.1 h
  obtain ⟨N, hN, _⟩ := schemaNss_uris B.target B.table B.uris
  exact ⟨flat_tagged B hr, N, hN, (B.names n r hr).resolves B.table B.uris hN⟩

end
end Xsd
