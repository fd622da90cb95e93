import Verif.Lemmas.Parse
/-!
# What every successful run of the parser preserves
-/
namespace Xsd

/-- An invariant `I` of the context, how contexts grow (`R`), which names are fine (`Nm`) and which references of a
definition are fine (`Ref s owner n`), with what the primitive steps of the parser have to establish. -/
structure ParseLaw where
  I : PCtx → Prop
  R : PCtx → PCtx → Prop
  Nm : PCtx → Name → Prop
  Ref : PCtx → Name → Name → Prop
  refl : ∀ s, R s s
  trans : ∀ {a b c}, R a b → R b c → R a c
  nm_mono : ∀ {s s' n}, R s s' → Nm s n → Nm s' n
  ref_mono : ∀ {s s' p n}, R s s' → Ref s p n → Ref s' p n

namespace ParseLaw
variable (L : ParseLaw)

/-- A content whose reference is fine. -/
def Content (s : PCtx) (owner : Name) : LeafContent → Prop
  | .named n => L.Ref s owner n
  | _ => True

/-- A leaf with a fine name and a fine reference; a group is a reference. -/
def LeafOK (s : PCtx) (owner : Name) (l : Leaf) : Prop :=
  L.Nm s l.name ∧ L.Content s owner l.definition.content ∧ (l.isVirtual = true → ∃ n, l.definition.content = .named n)

/-- An attribute with a fine name and a fine reference. -/
def AttrOK (s : PCtx) (owner : Name) (a : Attribute) : Prop := L.Nm s a.name ∧ L.Content s owner a.content

/-- An element content with fine names and references. -/
def ElemContentOK (s : PCtx) (owner : Name) : Option ElementContent → Prop
  | none => True
  | some (.leaf n d) => L.Nm s n ∧ L.Content s owner d.content
  | some (.leaves ls) => ∀ l ∈ ls, L.LeafOK s owner l

/-- An element definition with fine names and references. -/
def ElemOK (s : PCtx) (owner : Name) (d : ElementDef) : Prop :=
  (∀ a ∈ d.attributes, L.AttrOK s owner a) ∧ L.ElemContentOK s owner d.content

/-- A root with fine names and references. -/
def RootOK (s : PCtx) (owner : Name) : Root → Prop
  | .leaf d => L.Content s owner d.content
  | .enum ns => ∀ n ∈ ns, L.Nm s n
  | .element d => L.ElemOK s owner d
  | .choice vs _ _ => ∀ l ∈ vs, L.LeafOK s owner l

variable {L} {s s' : PCtx} {owner : Name}

theorem Content.mono (h : L.R s s') {c : LeafContent} (hc : L.Content s owner c) : L.Content s' owner c := by
  cases c with
  | named n => exact L.ref_mono h hc
  | literal _ => trivial
  | fixed _ => trivial

theorem LeafOK.mono (h : L.R s s') {l : Leaf} (hl : L.LeafOK s owner l) : L.LeafOK s' owner l :=
  ⟨L.nm_mono h hl.1, hl.2.1.mono h, hl.2.2⟩

theorem AttrOK.mono (h : L.R s s') {l : Attribute} (hl : L.AttrOK s owner l) : L.AttrOK s' owner l :=
  ⟨L.nm_mono h hl.1, hl.2.mono h⟩

theorem ElemContentOK.mono (h : L.R s s') {c : Option ElementContent} (hc : L.ElemContentOK s owner c) :
    L.ElemContentOK s' owner c := by
  match c, hc with
  | none, _ => trivial
  | some (.leaf n d), hc => exact ⟨L.nm_mono h hc.1, hc.2.mono h⟩
  | some (.leaves ls), hc => exact fun l hl => (hc l hl).mono h

theorem ElemOK.mono (h : L.R s s') {d : ElementDef} (hd : L.ElemOK s owner d) : L.ElemOK s' owner d :=
  ⟨fun a ha => (hd.1 a ha).mono h, hd.2.mono h⟩

theorem RootOK.mono (h : L.R s s') {r : Root} (hr : L.RootOK s owner r) : L.RootOK s' owner r := by
  match r, hr with
  | .leaf d, hr => exact Content.mono h hr
  | .enum ns, hr => exact fun n hn => L.nm_mono h (hr n hn)
  | .element d, hr => exact ElemOK.mono h hr
  | .choice vs _ _, hr => exact fun l hl => (hr l hl).mono h

theorem RootOK.withDocs {r : Root} (hr : L.RootOK s owner r) (docs : Option Str) : L.RootOK s owner (r.withDocs docs) := by
  unfold Root.withDocs
  split
  · cases r <;> exact hr
  · exact hr

theorem ElemOK.withDocs {d : ElementDef} (hd : L.ElemOK s owner d) (docs : Option Str) : L.ElemOK s owner (d.withDocs docs) := by
  unfold ElementDef.withDocs
  split
  · exact hd
  · exact hd

/-- What the primitive steps have to establish. -/
structure Ok (L : ParseLaw) : Prop where
  typeName : ∀ {a s c s'}, L.I s → getTypeName a s = .ok (c, s') → L.I s' ∧ L.R s s'
  discover : ∀ {a s n s'} (p : Name), L.I s → getTypeName a s = .ok (.named n, s') →
    L.I (s'.discoverType n p) ∧ L.R s' (s'.discoverType n p) ∧ L.Nm s' n ∧ L.Ref (s'.discoverType n p) p n
  node : ∀ {s} (v : Str), L.I s → L.Nm s (s.nodeName v false)
  plain : ∀ {s} (v : Str), L.I s → L.Nm s ⟨v, .none⟩
  add : ∀ {s v p r owner}, L.I s → L.RootOK s owner r → (owner = p ∨ owner = s.nodeName v false) →
    L.I ((s.addRoot (s.nodeName v false) r).discoverType (s.nodeName v false) p) ∧
    L.R s ((s.addRoot (s.nodeName v false) r).discoverType (s.nodeName v false) p) ∧
    L.Ref ((s.addRoot (s.nodeName v false) r).discoverType (s.nodeName v false) p) p (s.nodeName v false)
  /-- the derived name of an anonymous type is not affected by parsing that type -/
  nodeName : ∀ {s s'} (v : Str), L.R s s' → s'.nodeName v false = s.nodeName v false

variable (x : Ext) (H : L.Ok)
include H

theorem typeAttr_inv {nd nd' : Nd} {a : XAttr} {parent : Name} {c : LeafContent} (hI : L.I s)
    (h : TypeAttrRun nd a parent s c nd' s') : L.I s' ∧ L.R s s' ∧ L.Content s' parent c := by
  cases h with
  | named n s1 h =>
    obtain ⟨h1, h2, _, h4⟩ := H.discover parent hI h
    exact ⟨h1, L.trans (H.typeName hI h).2 h2, h4⟩
  | fixed t s1 f h hf => exact ⟨(H.typeName hI h).1, (H.typeName hI h).2, trivial⟩
  | literal t s1 h hf => exact ⟨(H.typeName hI h).1, (H.typeName hI h).2, trivial⟩

theorem simpleType_inv {nd : Nd} {r : Root} (hI : L.I s) (h : SimpleTypeRun x nd s r s') :
    L.I s' ∧ L.R s s' ∧ ∀ owner, L.RootOK s' owner r := by
  cases h with
  | mk docs restriction rest attr t s' fs hp hd hr ha ht hc hf =>
    obtain ⟨h1, h2⟩ := H.typeName hI ht
    refine ⟨h1, h2, fun owner => ?_⟩
    split
    · trivial
    · intro n hn
      obtain ⟨v, _, rfl⟩ := List.mem_map.1 hn
      exact H.plain v h1

theorem attrContent_inv {nd nd' : Nd} {name parent : Name} {child : Option Nd} {c : LeafContent} (hI : L.I s)
    (h : AttrContentRun x nd name parent s child c nd' s') : L.I s' ∧ L.R s s' ∧ L.Content s' parent c := by
  cases h with
  | plain c t rs docs s' h => exact ⟨(simpleType_inv x H hI h).1, (simpleType_inv x H hI h).2.1, trivial⟩
  | inline c root s1 v h hv =>
    obtain ⟨h1, h2, h3⟩ := simpleType_inv x H hI h
    obtain ⟨h4, h5, h6⟩ := H.add (v := v) (p := parent) h1 (h3 parent) (.inl rfl)
    exact ⟨h4, L.trans h2 h5, h6⟩
  | typed a c nd' s' ha h => exact typeAttr_inv H hI h

theorem attribute_inv {nd : Nd} {parent : Name} {r : Option Attribute} (hI : L.I s) (h : AttributeRun x nd parent s r s') :
    L.I s' ∧ L.R s s' ∧ ∀ a, r = some a → L.AttrOK s' parent a := by
  cases h with
  | prohibited nameAttr docs content nd' s' hn hd hc hk hu =>
    obtain ⟨h1, h2, _⟩ := attrContent_inv x H hI hc
    exact ⟨h1, h2, nofun⟩
  | some nameAttr docs content nd' s' hn hd hc hk hu hx hp =>
    obtain ⟨h1, h2, h3⟩ := attrContent_inv x H hI hc
    refine ⟨h1, h2, ?_⟩
    intro a ha
    cases ha
    exact ⟨H.plain _ h1, h3⟩

theorem attributes_inv {parent : Name} {cs : List Nd} {as : List Attribute} (hI : L.I s)
    (h : AttributesRun x parent cs s as s') : L.I s' ∧ L.R s s' ∧ ∀ a ∈ as, L.AttrOK s' parent a := by
  induction h with
  | nil s => exact ⟨hI, L.refl _, by simp⟩
  | skip c cs s s1 as s' h hs ih =>
    obtain ⟨h1, h2, _⟩ := attribute_inv x H hI (parseAttribute_run x h)
    obtain ⟨h3, h4, h5⟩ := ih h1
    exact ⟨h3, L.trans h2 h4, h5⟩
  | cons c cs s s1 a as s' h hs ih =>
    obtain ⟨h1, h2, ha⟩ := attribute_inv x H hI (parseAttribute_run x h)
    obtain ⟨h3, h4, h5⟩ := ih h1
    refine ⟨h3, L.trans h2 h4, ?_⟩
    intro b hb
    rcases List.mem_cons.1 hb with rfl | hb
    · exact (ha _ rfl).mono h4
    · exact h5 b hb

theorem simpleContent_inv {nd : Nd} {parent : Name} {d : ElementDef} (hI : L.I s) (hP : L.Nm s parent)
    (h : SimpleContentRun x nd parent s d s') : L.I s' ∧ L.R s s' ∧ L.ElemOK s' parent d := by
  cases h with
  | named extension base n s1 attributes s' hp hr hb ht ha hk =>
    obtain ⟨h1, h2, h3, h4⟩ := H.discover parent hI ht
    obtain ⟨h5, h6, h7⟩ := attributes_inv x H h1 ha
    have h8 := L.trans h2 h6
    exact ⟨h5, L.trans (H.typeName hI ht).2 h8, h7, L.nm_mono h8 h3, L.ref_mono h6 h4⟩
  | literal extension base t s1 attributes s' hp hr hb ht ha hk =>
    obtain ⟨h1, h2⟩ := H.typeName hI ht
    obtain ⟨h5, h6, h7⟩ := attributes_inv x H h1 ha
    have h8 := L.trans h2 h6
    exact ⟨h5, h8, h7, L.nm_mono h8 hP, trivial⟩

theorem addGroup_inv {parent : Name} {members : List Leaf} {suffix : List Name} {root : Root} {docs : Option Str} {mn : Nat}
    {mx : MaxOccurs} {l : Leaf} (hI : L.I s) (hr : L.RootOK s parent root)
    (h : addGroup x parent members suffix root docs mn mx s = .ok (l, s')) : L.I s' ∧ L.R s s' ∧ L.LeafOK s' parent l := by
  obtain ⟨ln, rn, h1, h2, rfl, rfl⟩ := addGroup_ok h
  rw [deriveVirtualName_ok] at h1 h2
  obtain ⟨v1, _, rfl, _⟩ := h1
  obtain ⟨v2, _, rfl, _⟩ := h2
  obtain ⟨h4, h5, h6⟩ := H.add (v := v2) (p := parent) hI hr (.inl rfl)
  exact ⟨h4, h5, L.nm_mono h5 (H.node v1 hI), h6, fun _ => ⟨_, rfl⟩⟩

theorem leavesRun_inv {Q : Nd → PCtx → Option Leaf → PCtx → Prop} {parent : Name}
    (hq : ∀ c s l s', L.I s → L.Nm s parent → Q c s l s' → L.I s' ∧ L.R s s' ∧ ∀ l', l = some l' → L.LeafOK s' parent l')
    {cs : List Nd} {ls : List Leaf} (hI : L.I s) (hP : L.Nm s parent) (h : LeavesRun Q cs s ls s') :
    L.I s' ∧ L.R s s' ∧ ∀ l ∈ ls, L.LeafOK s' parent l := by
  induction h with
  | nil s => exact ⟨hI, L.refl _, by simp⟩
  | skip c cs s s1 ls s' h hs ih =>
    obtain ⟨h1, h2, _⟩ := hq _ _ _ _ hI hP h
    obtain ⟨h3, h4, h5⟩ := ih h1 (L.nm_mono h2 hP)
    exact ⟨h3, L.trans h2 h4, h5⟩
  | cons c cs s s1 l ls s' h hs ih =>
    obtain ⟨h1, h2, hl⟩ := hq _ _ _ _ hI hP h
    obtain ⟨h3, h4, h5⟩ := ih h1 (L.nm_mono h2 hP)
    refine ⟨h3, L.trans h2 h4, ?_⟩
    intro b hb
    rcases List.mem_cons.1 hb with rfl | hb
    · exact (hl _ rfl).mono h4
    · exact h5 b hb

/-- The statement of the induction. -/
structure All (L : ParseLaw) (x : Ext) (k : Nat) : Prop where
  root : ∀ {nd parent s r s'}, L.I s → L.Nm s parent → parseRoot x k nd parent s = .ok (r, s') →
    L.I s' ∧ L.R s s' ∧ L.RootOK s' parent r
  elementRoot : ∀ {nd parent s r s'}, L.I s → L.Nm s parent → parseElementRoot x k nd parent s = .ok (r, s') →
    L.I s' ∧ L.R s s' ∧ L.RootOK s' parent r
  complexType : ∀ {nd parent s r s'}, L.I s → L.Nm s parent → parseComplexType x k nd parent s = .ok (r, s') →
    L.I s' ∧ L.R s s' ∧ L.RootOK s' parent r
  particle : ∀ {kids parent s c rest s'}, L.I s → L.Nm s parent → parseParticle x k kids parent s = .ok ((c, rest), s') →
    L.I s' ∧ L.R s s' ∧ L.ElemContentOK s' parent c
  complexContent : ∀ {nd parent s d s'}, L.I s → L.Nm s parent → parseComplexContent x k nd parent s = .ok (d, s') →
    L.I s' ∧ L.R s s' ∧ L.ElemOK s' parent d
  extension : ∀ {child base parent s ls s'}, L.I s → L.Nm s parent → parseExtension x k child base parent s = .ok (ls, s') →
    L.I s' ∧ L.R s s' ∧ ∀ l ∈ ls, L.LeafOK s' parent l
  sequence : ∀ {nd parent s ls s'}, L.I s → L.Nm s parent → parseSequence x k nd parent s = .ok (ls, s') →
    L.I s' ∧ L.R s s' ∧ ∀ l ∈ ls, L.LeafOK s' parent l
  choice : ∀ {nd parent s ls s'}, L.I s → L.Nm s parent → parseChoice x k nd parent s = .ok (ls, s') →
    L.I s' ∧ L.R s s' ∧ ∀ l ∈ ls, L.LeafOK s' parent l
  child : ∀ {nd parent s l s'}, L.I s → L.Nm s parent → parseElementChild x k nd parent s = .ok (l, s') →
    L.I s' ∧ L.R s s' ∧ L.LeafOK s' parent l

theorem all (k : Nat) : All L x k := by
  induction k with
  | zero => constructor <;> (intros; rename_i h; first | cases h | (unfold parseExtension at h; cases h))
  | succ k ih =>
    constructor
    case root =>
      intro nd parent s r s' hI hP h
      replace h := parseRoot_run x h
      cases h with
      | element hn h => exact ih.elementRoot hI hP h
      | complexType hn h => exact ih.complexType hI hP h
      | simpleType hn h =>
        obtain ⟨h1, h2, h3⟩ := simpleType_inv x H hI h
        exact ⟨h1, h2, h3 parent⟩
    case elementRoot =>
      intro nd parent s r s' hI hP h
      replace h := parseElementRoot_run x h
      cases h with
      | typed docs a c nd' s' hd ht hc hp hk => exact typeAttr_inv H hI hc
      | complexType docs child root s' hd ht hp hk h =>
        obtain ⟨h1, h2, h3⟩ := ih.complexType hI hP h
        exact ⟨h1, h2, h3.withDocs docs⟩
      | simpleType docs child root s' hd ht hp hn hk h =>
        obtain ⟨h1, h2, h3⟩ := simpleType_inv x H hI h
        exact ⟨h1, h2, (h3 parent).withDocs docs⟩
    case complexType =>
      intro nd parent s r s' hI hP h
      replace h := parseComplexType_run x h
      cases h with
      | simpleContent docs child d s' hm hp hd hk h =>
        obtain ⟨h1, h2, h3⟩ := simpleContent_inv x H hI hP h
        exact ⟨h1, h2, h3.withDocs docs⟩
      | complexContent docs child d s' hm hp hd hn hk h =>
        obtain ⟨h1, h2, h3⟩ := ih.complexContent hI hP h
        exact ⟨h1, h2, h3.withDocs docs⟩
      | particle docs content rest s1 attributes s' hm hp hd hn hn2 h ha hk =>
        obtain ⟨h1, h2, h3⟩ := ih.particle hI hP h
        obtain ⟨h4, h5, h6⟩ := attributes_inv x H h1 ha
        exact ⟨h4, L.trans h2 h5, h6, h3.mono h5⟩
    case particle =>
      intro kids parent s c rest s' hI hP h
      have mark : ∀ {s : PCtx} {child : Nd} {ls : List Leaf}, (∀ l ∈ ls, L.LeafOK s parent l) →
          ∀ l ∈ markUnordered child ls, L.LeafOK s parent l := by
        intro s child ls hls l hl
        unfold markUnordered at hl
        split at hl
        · obtain ⟨l', hl', rfl⟩ := List.mem_map.1 hl
          exact hls l' hl'
        · exact hls l hl
      have hrun := parseParticle_run x h
      clear h
      cases hrun with
      | group child rest mn mx leaves s1 leaf s' hk hmn hmx h hg hl =>
        obtain ⟨h1, h2, h3⟩ := ih.sequence hI hP h
        obtain ⟨h4, h5, h6⟩ := addGroup_inv x H h1 (root := groupRoot (markUnordered child leaves)) ⟨nofun, mark h3⟩ hl
        refine ⟨h4, L.trans h2 h5, ?_⟩
        intro l hl
        cases List.mem_singleton.1 hl
        exact h6
      | sequence child rest mn mx leaves s' hk hmn hmx h hg =>
        obtain ⟨h1, h2, h3⟩ := ih.sequence hI hP h
        exact ⟨h1, h2, mark h3⟩
      | choice child rest variants s1 v hn hk h hv =>
        obtain ⟨h1, h2, h3⟩ := ih.choice hI hP h
        obtain ⟨h4, h5, h6⟩ := H.add (v := v) (p := parent) (r := .choice variants false none) h1 h3 (.inl rfl)
        exact ⟨h4, L.trans h2 h5, L.nm_mono h5 (H.node v h1), h6⟩
      | none hn hk => exact ⟨hI, L.refl _, trivial⟩
    case complexContent =>
      intro nd parent s d s' hI hP h
      replace h := parseComplexContent_run x h
      cases h with
      | mk extension base n s1 vl s2 attributes s' hp hr hb ht h ha hk =>
        obtain ⟨h1, h2, h3, h4⟩ := H.discover parent hI ht
        have h02 := L.trans (H.typeName hI ht).2 h2
        obtain ⟨h5, h6, h7⟩ := ih.extension h1 (L.nm_mono h02 hP) h
        obtain ⟨h8, h9, h10⟩ := attributes_inv x H h5 ha
        have h11 := L.trans h6 h9
        refine ⟨h8, L.trans h02 h11, h10, ?_⟩
        show L.ElemContentOK s' parent (some _)
        split
        · exact ⟨L.nm_mono (L.trans h2 h11) h3, L.ref_mono h11 h4⟩
        · intro l hl
          rcases List.mem_cons.1 hl with rfl | hl
          · exact ⟨H.node _ h8, L.ref_mono h11 h4, fun _ => ⟨_, rfl⟩⟩
          · exact (h7 l hl).mono h9
    case extension =>
      intro child base parent s ls s' hI hP h
      replace h := parseExtension_run x h
      cases h with
      | none => exact ⟨hI, L.refl _, by simp⟩
      | some child mn leaves s1 v hmn h hv =>
        obtain ⟨h1, h2, h3⟩ := ih.sequence hI hP h
        obtain ⟨h4, h5, h6⟩ := H.add (v := v) (p := parent) (r := groupRoot leaves) h1 ⟨nofun, h3⟩ (.inl rfl)
        refine ⟨h4, L.trans h2 h5, ?_⟩
        intro l hl
        cases List.mem_singleton.1 hl
        exact ⟨L.nm_mono h5 (H.node _ h1), h6, fun _ => ⟨_, rfl⟩⟩
    case sequence =>
      intro nd parent s ls s' hI hP h
      refine leavesRun_inv H ?_ hI hP (parseSequence_run x h).2
      clear h hI hP
      intro c s l s' hI hP h
      cases h with
      | element l s' hn h =>
        obtain ⟨h1, h2, h3⟩ := ih.child hI hP h
        exact ⟨h1, h2, fun l' hl => by cases hl; exact h3⟩
      | choice mn mx variants s1 l s' hn hmn hmx h hl =>
        obtain ⟨h1, h2, h3⟩ := ih.choice hI hP h
        obtain ⟨h4, h5, h6⟩ := addGroup_inv x H h1 (root := .choice variants true none) h3 hl
        exact ⟨h4, L.trans h2 h5, fun l' hl => by cases hl; exact h6⟩
      | sequence docs mn leaves s1 l s' hn hd hmn h hl =>
        obtain ⟨h1, h2, h3⟩ := ih.sequence hI hP h
        obtain ⟨h4, h5, h6⟩ := addGroup_inv x H h1 (root := groupRoot leaves) ⟨nofun, h3⟩ hl
        exact ⟨h4, L.trans h2 h5, fun l' hl => by cases hl; exact h6⟩
      | annotation hn => exact ⟨hI, L.refl _, nofun⟩
    case choice =>
      intro nd parent s ls s' hI hP h
      refine leavesRun_inv H ?_ hI hP (parseChoice_run x h).2
      clear h hI hP
      intro c s l s' hI hP h
      cases h with
      | element l s' hn h =>
        obtain ⟨h1, h2, h3⟩ := ih.child hI hP h
        exact ⟨h1, h2, fun l' hl => by cases hl; exact h3⟩
      | sequence docs mn mx leaves s1 l s' hn hd hmn hmx h hl =>
        obtain ⟨h1, h2, h3⟩ := ih.sequence hI hP h
        obtain ⟨h4, h5, h6⟩ := addGroup_inv x H h1 (root := groupRoot leaves) ⟨nofun, h3⟩ hl
        exact ⟨h4, L.trans h2 h5, fun l' hl => by cases hl; exact h6⟩
      | annotation hn => exact ⟨hI, L.refl _, nofun⟩
    case child =>
      intro nd parent s l s' hI hP h
      replace h := parseElementChild_run x h
      cases h with
      | ref mn mx a n s1 hmn hmx hr hp ht =>
        obtain ⟨h1, h2, h3, h4⟩ := H.discover parent hI ht
        exact ⟨h1, L.trans (H.typeName hI ht).2 h2, L.nm_mono h2 h3, h4, nofun⟩
      | typed mn mx na docs a c nd' s' hmn hmx hr hn hd ht hc hp =>
        obtain ⟨h1, h2, h3⟩ := typeAttr_inv H hI hc
        exact ⟨h1, h2, L.nm_mono h2 (H.node _ hI), h3, nofun⟩
      | any mn mx na docs hmn hmx hr hn hd ht hs hc hp => exact ⟨hI, L.refl _, H.node _ hI, trivial, nofun⟩
      | inline mn mx na docs v root s1 hmn hmx hr hn hd ht hsc hp hv hroot =>
        obtain ⟨h1, h2, h3⟩ := ih.root hI (H.node v hI) hroot
        rw [← H.nodeName v h2] at h3 ⊢
        obtain ⟨h4, h5, h6⟩ := H.add (v := v) (p := parent) h1 h3 (.inr rfl)
        exact ⟨h4, L.trans h2 h5, L.nm_mono (L.trans h2 h5) (H.node _ hI), h6, nofun⟩

end ParseLaw

end Xsd
