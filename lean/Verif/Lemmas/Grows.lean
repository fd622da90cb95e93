import Verif.Lemmas.TreeFiles
import Verif.Spec.Finite
/-!
# What is used as a group is a group, in parsed schemas in which no type has overwritten another one

As in `Verif/Lemmas/TreeAll.lean` the types that are added are counted, here for all schema files.
-/
namespace Xsd.Tree
open Xsd.Flat (attributeNodes)

/-- The leaf is no group, or refers to one, and so do the leaves of the group. -/
inductive GroupLeaf (G : Name → Option Root) : Leaf → Prop where
  | plain {l} (hv : l.isVirtual = false) : GroupLeaf G l
  | group {l m r} (hc : l.definition.content = .named m) (hm : G m = some r)
      (hr : r = groupRoot r.leaves ∨ ∃ b, r = .choice r.leaves b none) (hl : ∀ l ∈ r.leaves, GroupLeaf G l) : GroupLeaf G l

/-- The leaves of the type are as above. The only other leaf is that for the base of an extension, which occurs once. -/
def RootGroups (G : Name → Option Root) (r : Root) : Prop :=
  ∀ l ∈ r.leaves, GroupLeaf G l ∨ (l.repeats = false ∧ l.mayMiss = false ∧ ∃ e, r = .element e)

/-- At most `c` types are added between two contexts. If there are `c`, and the final table of types has them, then `R`, and the groups in
them are groups. -/
def Grows (G : Name → Option Root) (s s' : PCtx) (c : Nat) (R : Prop) : Prop :=
  ∃ log : List (Name × Root), s'.roots = applyAll log s.roots ∧ log.length ≤ c ∧
    (log.length = c → (∀ p ∈ log, G p.1 = some p.2) → R ∧ ∀ p ∈ log, RootGroups G p.2)

section
variable {G : Name → Option Root} {s s' s'' : PCtx} {c c' : Nat} {R R' : Prop}

theorem Grows.nil (h : s'.roots = s.roots) (hr : R) : Grows G s s' c R :=
  ⟨[], h, Nat.zero_le _, fun _ _ => ⟨hr, nofun⟩⟩

theorem Grows.imp (h : Grows G s s' c R) (hi : R → R') : Grows G s s' c R' := by
  obtain ⟨log, h1, h2, h3⟩ := h
  exact ⟨log, h1, h2, fun a b => ⟨hi (h3 a b).1, (h3 a b).2⟩⟩

theorem Grows.le (h : Grows G s s' c R) (hc : c ≤ c') (hi : R → R') : Grows G s s' c' R' := by
  obtain ⟨log, h1, h2, h3⟩ := h
  exact ⟨log, h1, by omega, fun a b => ⟨hi (h3 (by omega) b).1, (h3 (by omega) b).2⟩⟩

theorem Grows.cast (h : Grows G s s' c R) (hc : c = c') : Grows G s s' c' R := hc ▸ h

theorem Grows.trans (h : Grows G s s' c R) (h' : Grows G s' s'' c' R') : Grows G s s'' (c + c') (R ∧ R') := by
  obtain ⟨log, h1, h2, h3⟩ := h
  obtain ⟨log', h1', h2', h3'⟩ := h'
  refine ⟨log ++ log', by rw [applyAll_append, ← h1, h1'], by rw [List.length_append]; omega, fun a b => ?_⟩
  rw [List.length_append] at a
  obtain ⟨r1, e1⟩ := h3 (by omega) (fun p hp => b p (List.mem_append_left _ hp))
  obtain ⟨r2, e2⟩ := h3' (by omega) (fun p hp => b p (List.mem_append_right _ hp))
  exact ⟨⟨r1, r2⟩, fun p hp => (List.mem_append.1 hp).elim (e1 p) (e2 p)⟩

theorem Grows.add {n : Name} {r : Root} (h : Grows G s s' c R) (hr : R → RootGroups G r) :
    Grows G s (s'.addRoot n r) (c + 1) (R ∧ G n = some r) := by
  obtain ⟨log, h1, h2, h3⟩ := h
  refine ⟨log ++ [(n, r)], by rw [applyAll_append, ← h1]; rfl, by rw [List.length_append]; simpa using h2, fun a b => ?_⟩
  rw [List.length_append] at a
  obtain ⟨r1, e1⟩ := h3 (by simpa using a) (fun p hp => b p (List.mem_append_left _ hp))
  refine ⟨⟨r1, b (n, r) (by simp)⟩, fun p hp => ?_⟩
  rcases List.mem_append.1 hp with hp | hp
  · exact e1 p hp
  · cases List.mem_singleton.1 hp
    exact hr r1

theorem Grows.from (h : Grows G s' s'' c R) (hs : s'.roots = s.roots) : Grows G s s'' c R := by
  obtain ⟨log, h1, h2, h3⟩ := h
  exact ⟨log, by rw [h1, hs], h2, h3⟩

theorem Grows.to (h : Grows G s s' c R) (hs : s''.roots = s'.roots) : Grows G s s'' c R := by
  obtain ⟨log, h1, h2, h3⟩ := h
  exact ⟨log, by rw [hs, h1], h2, h3⟩

end

section
variable {x : Ext} {G : Name → Option Root} {s s' : PCtx}

theorem attribute_grows {nd : Nd} {parent : Name} {o : Option Attribute}
    (h : AttributeRun x nd parent s o s') :
    Grows G s s' (if enumerates nd then 1 else 0) True := by
  have key : ∀ {nameAttr content nd' s'}
      (_ : AttrContentRun x (nd.see c!"name") ⟨nameAttr, .none⟩ parent s
        (removeKid c!"simpleType" (removeKid c!"annotation" nd.xsdKids).2).1 content nd' s')
      (_ : (removeKid c!"simpleType" (removeKid c!"annotation" nd.xsdKids).2).2 = []),
      Grows G s s' (if enumerates nd then 1 else 0) True := by
    intro nameAttr content nd' s' hcr hk'
    have honly : ∀ c ∈ nd.xsdKids, c.name = c!"simpleType" →
        (removeKid c!"simpleType" (removeKid c!"annotation" nd.xsdKids).2).1 = some c := by
      intro c hc hn
      rcases rk_mem c!"simpleType" (rk_keep (n := c!"annotation") hc (by rw [hn]; decide)) with h | h
      · exact h
      · rw [hk'] at h; cases h
    have hname := fun c => rk_name (n := c!"simpleType") (ks := (removeKid c!"annotation" nd.xsdKids).2) (c := c)
    generalize (removeKid c!"simpleType" (removeKid c!"annotation" nd.xsdKids).2).1 = o at hcr honly hname
    cases hcr with
    | plain c l rs docs s' h => exact .nil (simpleType_roots h).1 trivial
    | inline c root s1 v h hv hne =>
      obtain ⟨hcn, hcm⟩ := hname c rfl
      have hcn := name_of_info hcn
      have hcm := rk_rest hcm
      have hu : ∀ c' ∈ nd.xsdKids, c'.name = c!"simpleType" → c' = c := fun c' h1 h2 => (Option.some.inj (honly c' h1 h2)).symm
      have hen : enumerates nd = true := (enumerates_iff hcm hcn hu).2 (Classical.byContradiction (fun hh => by
          obtain ⟨t, rs, docs, hr⟩ := (simpleType_enumeration h).2 hh
          exact hne _ _ _ hr))
      rw [if_pos hen]
      have hleaf : root.leaves = [] := by
        cases h with
        | mk docs restriction rest attr t s' fs hp hd hr ha ht hc hf => split <;> rfl
      refine Grows.to ((Grows.add (n := s1.nodeName v false) (r := root) (Grows.nil (c := 0) (simpleType_roots h).1 trivial) ?_).imp fun _ => trivial) rfl
      intro _ l hl
      rw [hleaf] at hl
      cases hl
    | typed a c nd' s' ha h => exact .nil (typeAttr_roots h).1 trivial
  cases h with
  | prohibited nameAttr docs content nd' s' hn' hdo hc hk' hu => exact key hc hk'
  | some nameAttr docs content nd' s' hn' hdo hc hk' hu hx' hp => exact key hc hk'

theorem attributes_grow {parent : Name} {cs : List Nd} {as : List Attribute} {s s' : PCtx}
    (hn : ∀ c ∈ cs, c.name = c!"attribute") (h : AttributesRun x parent cs s as s') (nd : Nd) (f : Nat) :
    Grows G s s' (cs.map (fun c => ownType nd c + typesBelow f c)).sum True := by
  induction h with
  | nil => exact .nil rfl trivial
  | skip c cs s s1 as s' h hs ih =>
    rw [List.map_cons, List.sum_cons, ownType_attribute (hn c (.head _)), below_attribute (hn c (.head _))]
    exact ((attribute_grows (parseAttribute_run x h)).trans (ih fun c hc => hn c (.tail _ hc))).imp fun _ => trivial
  | cons c cs s s1 a as s' h hs ih =>
    rw [List.map_cons, List.sum_cons, ownType_attribute (hn c (.head _)), below_attribute (hn c (.head _))]
    exact ((attribute_grows (parseAttribute_run x h)).trans (ih fun c hc => hn c (.tail _ hc))).imp fun _ => trivial

/-- A list of particles. -/
theorem leaves_grow {Q : Nd → PCtx → Option Leaf → PCtx → Prop} {g : Nd → Nat} {cs : List Nd} {ls : List Leaf} {s s' : PCtx}
    (hn : ∀ c ∈ cs, ∀ s s', Q c s none s' → s' = s)
    (hq : ∀ c ∈ cs, ∀ s l s', Q c s (some l) s' → Grows G s s' (g c) (GroupLeaf G l))
    (h : LeavesRun Q cs s ls s') : Grows G s s' (cs.map g).sum (∀ l ∈ ls, GroupLeaf G l) := by
  induction h with
  | nil => exact .nil rfl nofun
  | skip c cs s s1 ls s' h hs ih =>
    cases hn c (.head _) _ _ h
    rw [List.map_cons, List.sum_cons]
    exact (ih (fun c hc => hn c (.tail _ hc)) (fun c hc => hq c (.tail _ hc))).le (by omega) id
  | cons c cs s s1 l ls s' h hs ih =>
    rw [List.map_cons, List.sum_cons]
    refine ((hq c (.head _) _ _ _ h).trans (ih (fun c hc => hn c (.tail _ hc)) (fun c hc => hq c (.tail _ hc)))).imp ?_
    rintro ⟨a, b⟩ l' hl'
    rcases List.mem_cons.1 hl' with rfl | hl'
    · exact a
    · exact b l' hl'

theorem groupRoot_groups {ls : List Leaf} (h : ∀ l ∈ ls, GroupLeaf G l) : RootGroups G (groupRoot ls) := fun l hl => .inl (h l hl)

theorem choice_groups {ls : List Leaf} {b : Bool} (h : ∀ l ∈ ls, GroupLeaf G l) : RootGroups G (.choice ls b none) := fun l hl => .inl (h l hl)

theorem RootGroups.withDocs {r : Root} (h : RootGroups G r) (docs : Option Str) : RootGroups G (r.withDocs docs) := by
  unfold Root.withDocs
  split
  · cases r with
    | leaf d => exact nofun
    | enum vs => exact nofun
    | element d => exact fun l hl => (h l hl).imp id fun ⟨a, b, _⟩ => ⟨a, b, _, rfl⟩
    | choice vs b dd => exact fun l hl => (h l hl).imp id fun ⟨a, b, e, he⟩ => by cases he
  · exact h

theorem GroupLeaf.mark {child : Nd} {ls : List Leaf} (h : ∀ l ∈ ls, GroupLeaf G l) : ∀ l ∈ markUnordered child ls, GroupLeaf G l := by
  unfold markUnordered
  split
  · intro l hl
    obtain ⟨l', hl', rfl⟩ := List.mem_map.1 hl
    cases h l' hl' with
    | plain hv => exact .plain hv
    | group a b c d => exact .group a b c d
  · exact h

/-- A group is added. -/
theorem addGroup_grows {parent : Name} {members : List Leaf} {suffix : List Name} {root : Root} {docs : Option Str} {mn : Nat}
    {mx : MaxOccurs} {s1 : PCtx} {l : Leaf} {c : Nat} (h : Grows G s s1 c (∀ l ∈ members, GroupLeaf G l))
    (hr : root = groupRoot members ∨ root = .choice members true none)
    (hl : addGroup x parent members suffix root docs mn mx s1 = .ok (l, s')) : Grows G s s' (c + 1) (GroupLeaf G l) := by
  obtain ⟨ln, rn, _, _, rfl, rfl⟩ := addGroup_ok hl
  have hroot : (∀ l ∈ members, GroupLeaf G l) → RootGroups G root := fun h => by
    rcases hr with rfl | rfl
    · exact groupRoot_groups h
    · exact choice_groups h
  refine Grows.to ((h.add (n := rn) hroot).imp ?_) rfl
  rintro ⟨h1, h2⟩
  have hls : root.leaves = members := by rcases hr with rfl | rfl <;> rfl
  refine .group rfl h2 ?_ (by rw [hls]; exact h1)
  rw [hls]
  exact hr.imp id fun h => ⟨_, h⟩

end

section
variable (x : Ext) (G : Name → Option Root)

/-- The node has no attribute `ref`, or it is one that was not looked at, in no namespace. -/
def RefOK (nd : Nd) : Prop := nd.value c!"ref" = none ∨ (c!"ref" ∉ nd.seen ∧ ∀ a ∈ nd.info.attrs, a.loc = c!"ref" → a.ns = none)

/-- The statement of the induction. -/
structure GrowAll (k : Nat) : Prop where
  root : ∀ {nd parent s r s' f}, k + 3 ≤ f → RefOK nd → parseRoot x k nd parent s = .ok (r, s') →
    Grows G s s' (typesBelow f nd) (RootGroups G r)
  elementRoot : ∀ {nd parent s r s' f}, k + 3 ≤ f → nd.name = c!"element" → RefOK nd →
    parseElementRoot x k nd parent s = .ok (r, s') → Grows G s s' (typesBelow f nd) (RootGroups G r)
  complexType : ∀ {nd parent s r s' f}, k + 3 ≤ f → nd.name = c!"complexType" → parseComplexType x k nd parent s = .ok (r, s') →
    Grows G s s' (typesBelow f nd) (RootGroups G r)
  particle : ∀ {nd parent s c rest s' f}, k + 3 ≤ f → nd.name = c!"complexType" →
    parseParticle x k (removeKid c!"annotation" nd.xsdKids).2 parent s = .ok ((c, rest), s') →
    ∃ n, (nd.xsdKids.map (fun c => ownType nd c + typesBelow f c)).sum = n + (rest.map (fun c => ownType nd c + typesBelow f c)).sum ∧
      Grows G s s' n (∀ ls, c = some (.leaves ls) → ∀ l ∈ ls, GroupLeaf G l)
  complexContent : ∀ {nd parent s e s' f}, k + 3 ≤ f → nd.name = c!"complexContent" →
    parseComplexContent x k nd parent s = .ok (e, s') → Grows G s s' (typesBelow f nd) (RootGroups G (.element e))
  extension : ∀ {o base parent s ls s' f}, k + 2 ≤ f → (∀ g, o = some g → g.name = c!"sequence") →
    parseExtension x k o base parent s = .ok (ls, s') →
    Grows G s s' (match o with | some g => 1 + typesBelow f g | none => 0) (∀ l ∈ ls, GroupLeaf G l)
  sequence : ∀ {nd parent s ls s' f}, k + 3 ≤ f → nd.name = c!"sequence" ∨ nd.name = c!"all" →
    parseSequence x k nd parent s = .ok (ls, s') → Grows G s s' (typesBelow f nd) (∀ l ∈ ls, GroupLeaf G l)
  choice : ∀ {nd parent s ls s' f}, k + 3 ≤ f → nd.name = c!"choice" →
    parseChoice x k nd parent s = .ok (ls, s') → Grows G s s' (typesBelow f nd) (∀ l ∈ ls, GroupLeaf G l)
  child : ∀ {nd parent s l s' f}, k + 3 ≤ f → nd.name = c!"element" → parseElementChild x k nd parent s = .ok (l, s') → ∀ p,
    Grows G s s' (ownType p nd + typesBelow f nd) (GroupLeaf G l)

theorem growAll (k : Nat) : GrowAll x G k := by
  induction k with
  | zero =>
    constructor
    case extension => intro o base parent s ls s' f _ _ h; unfold parseExtension at h; cases h
    case particle => intro nd parent s c rest s' f _ _ h; cases h
    case root => intro nd parent s l s' f _ _ h; cases h
    case elementRoot => intro nd parent s l s' f _ _ _ h; cases h
    all_goals (intro nd parent s l s' f _ _ h; cases h)
  | succ k ih =>
    have hown : ∀ {p c : Nd}, c.name = c!"choice" → ownType p c = 1 := by
      intro p c h
      unfold ownType
      rw [if_pos h]
    have hownS : ∀ {p c : Nd}, c.name = c!"sequence" → p.name ≠ c!"complexType" → ownType p c = 1 := by
      intro p c h hp
      unfold ownType
      rw [h, if_neg (by decide), if_pos (by decide), if_neg (fun h => hp h.1)]
    have hsimple : ∀ {c s r s'}, SimpleTypeRun x c s r s' → RootGroups G r := by
      intro c s r s' h
      have : r.leaves = [] := by
        cases h with
        | mk docs restriction rest attr t s' fs hp hd hr ha ht hc hf => split <;> rfl
      intro l hl
      rw [this] at hl
      cases hl
    constructor
    case root =>
      intro nd parent s r s' f hf hr h
      replace h := parseRoot_run x h
      cases h with
      | element hn h => exact ih.elementRoot (by omega) hn hr h
      | complexType hn h => exact ih.complexType (by omega) hn h
      | simpleType hn h => exact .nil (simpleType_roots h).1 (hsimple h)
    case elementRoot =>
      intro nd parent s r s' f hf hel hr h
      replace h := parseElementRoot_run x h
      have hval : ∀ {n}, nd.attr n = none → nd.value n = none := by intro n h; unfold Nd.value; rw [h]; rfl
      cases h with
      | typed docs a c nd' s' hdo ht hc hp hk' => exact .nil (typeAttr_roots hc).1 nofun
      | complexType docs child root s' hdo ht hp hk' h =>
        have hch := rk_name (by rw [hk'] :
          (removeKid c!"complexType" (removeKid c!"annotation" nd.xsdKids).2).1 = some child)
        have hcn := name_of_info hch.1
        have hrv : nd.value c!"ref" = none := by
          rcases hr with hr | ⟨hr, hns⟩
          · exact hr
          · have hl := prevent_lacks hp rfl (nd' := nd) (n := c!"ref") (fun hm => by
              rcases List.mem_cons.1 hm with h | h
              · exact absurd h (by decide)
              · exact hr h)
            unfold Nd.value
            cases ha : nd.attr c!"ref" with
            | none => rfl
            | some a =>
              have hm := List.mem_of_find?_eq_some ha
              have hloc : a.loc = c!"ref" := by simpa using List.find?_some (p := fun a : XAttr => decide (a.loc = c!"ref")) ha
              exact absurd (hns a (List.mem_reverse.1 hm) hloc) (hl a ha)
        obtain ⟨f, rfl⟩ : ∃ g, f = g + 1 := ⟨f - 1, by omega⟩
        rw [below_element hrv (hval ht) hel, ← sum_annotation (g := fun c => ownType nd c + typesBelow f c)
          (fun c h => by rw [ownType_annotation h, below_annotation h]), sum_some hk']
        exact (ih.complexType (f := f) (by omega) hcn h).le (by omega) fun h => h.withDocs docs
      | simpleType docs child root s' hdo ht hp hn hk' h => exact .nil (simpleType_roots h).1 ((hsimple h).withDocs docs)
    case complexType =>
      intro nd parent s r s' f hf hnn h
      replace h := parseComplexType_run x h
      obtain ⟨f, rfl⟩ : ∃ g, f = g + 1 := ⟨f - 1, by omega⟩
      rw [below_holds (by rw [hnn]; decide)]
      have only : ∀ {n child} (_ : removeKid n (removeKid c!"annotation" nd.xsdKids).2 = (some child, [])),
          child.name = n ∧
          (nd.xsdKids.map (fun c => ownType nd c + typesBelow f c)).sum = ownType nd child + typesBelow f child := by
        intro n child hk
        refine ⟨(only_kid hk).2.1, ?_⟩
        rw [← sum_annotation (g := fun c => ownType nd c + typesBelow f c)
            (fun c h => by rw [ownType_annotation h, below_annotation h]), sum_some hk]
        rfl
      have hdocs : ∀ {e : ElementDef} (docs : Option Str), RootGroups G (.element e) → RootGroups G (.element (e.withDocs docs)) := by
        intro e docs h
        unfold ElementDef.withDocs
        split
        · exact fun l hl => (h l hl).imp id fun ⟨a, b, _⟩ => ⟨a, b, _, rfl⟩
        · exact h
      cases h with
      | simpleContent docs child e s' hm hp hdo hk' h =>
        obtain ⟨hcn, hsum⟩ := only hk'
        rw [hsum]
        have key : ∀ {ext base content s1 s2 as ln rs dd} (_ : removeKid c!"extension" child.xsdKids = (some ext, []))
            (_ : getTypeName base s = .ok (content, s1)) (_ : s2.roots = s1.roots)
            (_ : AttributesRun x parent (removeKids c!"attribute" ext.xsdKids).1 s2 as s')
            (_ : (removeKids c!"attribute" ext.xsdKids).2 = []),
            Grows G s s' (ownType nd child + typesBelow f child)
              (RootGroups G (.element (ElementDef.withDocs ⟨as, some (.leaf ln ⟨content, rs, dd⟩), false, none⟩ docs))) := by
          intro ext base content s1 s2 as ln rs dd hr ht hroots ha hk''
          obtain ⟨hq, hq'⟩ := removeKids_rest hk''
          have hex := rk_name (by rw [hr] : (removeKid c!"extension" child.xsdKids).1 = some ext)
          have hxn := name_of_info hex.1
          rw [hq] at ha
          obtain ⟨f, rfl⟩ : ∃ g, f = g + 2 := ⟨f - 2, by omega⟩
          have hA := attributes_grow (G := G) (fun c hc => name_of_info (hq' c hc)) ha ext f
          rw [below_holds (f := f + 1) (nd := child) (by rw [hcn]; decide), sum_some hr, below_holds (f := f) (by rw [hxn]; decide)]
          exact ((hA.from (hroots.trans (getTypeName_roots ht))).le (by omega) fun _ => hdocs docs nofun)
        cases h with
        | named ext base n s1 attributes s' hp hr hb ht ha hk'' => exact key (s2 := s1.discoverType n parent) hr ht rfl ha hk''
        | literal ext base l s1 attributes s' hp hr hb ht ha hk'' => exact key hr ht rfl ha hk''
      | complexContent docs child e s' hm hp hdo hn hk' h =>
        obtain ⟨hcn, hsum⟩ := only hk'
        rw [hsum]
        exact (ih.complexContent (f := f) (by omega) hcn h).le (by omega) (hdocs docs)
      | particle docs content rest s1 attributes s' hm hp hdo hn hn2 h ha hk' =>
        obtain ⟨hq, hq'⟩ := removeKids_rest hk'
        obtain ⟨n, h1, h4⟩ := ih.particle (f := f) (by omega) hnn h
        rw [h1]
        rw [hq] at ha
        have hA := attributes_grow (G := G) (fun c hc => name_of_info (hq' c hc)) ha nd f
        refine (h4.trans hA).imp fun ⟨h5, _⟩ l hl => ?_
        simp only [Root.leaves] at hl
        split at hl
        · exact .inl (h5 _ rfl l hl)
        · cases hl
    case particle =>
      intro nd parent s c rest s' f hf hnn h
      have hrun := parseParticle_run x h
      clear h
      have hsum : (nd.xsdKids.map (fun c => ownType nd c + typesBelow f c)).sum =
          ((removeKid c!"annotation" nd.xsdKids).2.map (fun c => ownType nd c + typesBelow f c)).sum :=
        (sum_annotation (g := fun c => ownType nd c + typesBelow f c)
            (fun c h => by rw [ownType_annotation h, below_annotation h]) _).symm
      have key : ∀ {n child rest} (_ : removeKid n (removeKid c!"annotation" nd.xsdKids).2 = (some child, rest)),
          child.name = n ∧ (nd.xsdKids.map (fun c => ownType nd c + typesBelow f c)).sum =
            (ownType nd child + typesBelow f child) + (rest.map (fun c => ownType nd c + typesBelow f c)).sum := by
        intro n child rest hk'
        have h1 := rk_name (by rw [hk'] : (removeKid n (removeKid c!"annotation" nd.xsdKids).2).1 = some child)
        refine ⟨name_of_info h1.1, ?_⟩
        rw [hsum, sum_some hk']
      have hseq : ∀ {child r}, sequenceOrAll (removeKid c!"annotation" nd.xsdKids).2 = (some child, r) →
          ∃ n, (n = c!"sequence" ∨ n = c!"all") ∧ removeKid n (removeKid c!"annotation" nd.xsdKids).2 = (some child, r) := by
        intro child r hk'
        unfold sequenceOrAll at hk'
        split at hk'
        · next h' => exact ⟨_, .inl rfl, by rw [h', hk']⟩
        · exact ⟨_, .inr rfl, hk'⟩
      cases hrun with
      | group child rest mn mx leaves s1 leaf s' hk' hmn hmx h hg hl =>
        obtain ⟨n, hn, hk'⟩ := hseq hk'
        obtain ⟨h2, h6⟩ := key hk'
        subst h2
        refine ⟨_, h6, ?_⟩
        have hs := ih.sequence (nd := child.sees occursSeen) (f := f) (by omega) hn h
        rw [below_see] at hs
        have hone : ownType nd child = 1 := by
          unfold ownType
          rw [if_neg (by rcases hn with h | h <;> rw [h] <;> decide), if_pos hn, if_neg]
          rintro ⟨_, h⟩
          exact (once_true hmn hmx).1 h hg
        refine ((addGroup_grows (hs.imp GroupLeaf.mark) (.inl rfl) hl).cast (by omega)).imp fun hl ls hls l hl' => ?_
        cases hls
        cases List.mem_singleton.1 hl'
        exact hl
      | sequence child rest mn mx leaves s' hk' hmn hmx h hg =>
        obtain ⟨n, hn, hk'⟩ := hseq hk'
        obtain ⟨h2, h6⟩ := key hk'
        subst h2
        refine ⟨_, h6, ?_⟩
        have hs := ih.sequence (nd := child.sees occursSeen) (f := f) (by omega) hn h
        rw [below_see] at hs
        refine hs.le (by omega) fun hs ls hls => ?_
        cases hls
        exact GroupLeaf.mark hs
      | choice child rest variants s1 v hn hk' h hv =>
        obtain ⟨h2, h6⟩ := key hk'
        refine ⟨_, h6, ?_⟩
        have hs := ih.choice (f := f) (by omega) h2 h
        refine Grows.to (((hs.add (n := s1.nodeName v false) choice_groups).cast (by rw [hown h2]; omega)).imp fun _ ls hls => ?_) rfl
        cases hls
      | none hn hk' => exact ⟨0, by rw [hsum]; omega, .nil rfl nofun⟩
    case complexContent =>
      intro nd parent s e s' f hf hnn h
      replace h := parseComplexContent_run x h
      cases h with
      | mk ext base n s1 vl s2 attributes s' hp hr hb ht h ha hk' =>
        have hex := rk_name (by rw [hr] : (removeKid c!"extension" nd.xsdKids).1 = some ext)
        have hxn := name_of_info hex.1
        obtain ⟨hq, hq'⟩ := removeKids_rest hk'
        have hsn := fun g => rk_name (n := c!"sequence") (ks := ext.xsdKids) (c := g)
        obtain ⟨f, rfl⟩ : ∃ g, f = g + 2 := ⟨f - 2, by omega⟩
        have hE := ih.extension (f := f) (by omega) (fun g hg => name_of_info (hsn g hg).1) h
        rw [hq] at ha
        have hA := attributes_grow (G := G) (fun c hc => name_of_info (hq' c hc)) ha ext f
        rw [below_holds (f := f + 1) (by rw [hnn]; decide), sum_some hr, below_holds (f := f) (by rw [hxn]; decide),
          sum_removeKid (fun c => ownType ext c + typesBelow f c) c!"sequence"]
        generalize (removeKid c!"sequence" ext.xsdKids).1 = o at h hE hsn
        have hA := (hE.trans hA).from (getTypeName_roots ht : s1.roots = _)
        refine hA.le ?_ ?_
        · cases o with
          | none => simp only []; omega
          | some g => simp only []; rw [hownS (name_of_info (hsn g rfl).1) (by rw [hxn]; decide)]; omega
        · rintro ⟨h4, _⟩ l hl
          by_cases hv : vl = []
          · rw [if_pos hv] at hl
            cases hl
          · rw [if_neg hv] at hl
            rcases List.mem_cons.1 hl with rfl | hl
            · exact .inr ⟨rfl, rfl, _, rfl⟩
            · exact .inl (h4 l hl)
    case extension =>
      intro o base parent s ls s' f hf hg h
      replace h := parseExtension_run x h
      cases h with
      | none => exact .nil rfl nofun
      | some child mn leaves s1 v hmn h hv =>
        have hs := ih.sequence (nd := child.see c!"minOccurs") (f := f) (by omega) (.inl (hg child rfl)) h
        rw [show typesBelow f (child.see c!"minOccurs") = typesBelow f child from below_see (ns := [c!"minOccurs"])] at hs
        refine Grows.to (((hs.add (n := s1.nodeName v false) groupRoot_groups).cast (by simp only []; omega)).imp ?_) rfl
        rintro ⟨h1, h2⟩ l hl
        cases List.mem_singleton.1 hl
        exact .group rfl h2 (.inl rfl) h1
    case sequence =>
      intro nd parent s ls s' f hf hnn h
      obtain ⟨hp, h⟩ := parseSequence_run x h
      obtain ⟨f, rfl⟩ : ∃ g, f = g + 1 := ⟨f - 1, by omega⟩
      have hnc : nd.name ≠ c!"complexType" := by rcases hnn with h | h <;> rw [h] <;> decide
      rw [below_holds (by rcases hnn with h | h <;> rw [h] <;> decide)]
      refine leaves_grow ?_ ?_ h
      · intro c hc s s' h
        cases h with
        | annotation hn => rfl
      · intro c hc s l s' h
        cases h with
        | element l s' hn h => exact ih.child (f := f) (by omega) hn h nd
        | choice mn mx variants s1 l s' hn hmn hmx h hl =>
          have hs := ih.choice (nd := c.sees occursSeen) (f := f) (by omega) hn h
          rw [below_see] at hs
          exact (addGroup_grows hs (.inr rfl) hl).cast (by rw [hown hn]; omega)
        | sequence docs mn leaves s1 l s' hn hdo hmn h hl =>
          have hs := ih.sequence (nd := c.see c!"minOccurs") (f := f) (by omega) (.inl hn) h
          rw [show typesBelow f (c.see c!"minOccurs") = typesBelow f c from below_see (ns := [c!"minOccurs"])] at hs
          exact (addGroup_grows hs (.inl rfl) hl).cast (by rw [hownS hn hnc]; omega)
    case choice =>
      intro nd parent s ls s' f hf hnn h
      obtain ⟨hp, h⟩ := parseChoice_run x h
      obtain ⟨f, rfl⟩ : ∃ g, f = g + 1 := ⟨f - 1, by omega⟩
      rw [below_holds (by rw [hnn]; decide)]
      refine leaves_grow ?_ ?_ h
      · intro c hc s s' h
        cases h with
        | annotation hn => rfl
      · intro c hc s l s' h
        cases h with
        | element l s' hn h => exact ih.child (f := f) (by omega) hn h nd
        | sequence docs mn mx leaves s1 l s' hn hdo hmn hmx h hl =>
          have hs := ih.sequence (nd := c.sees occursSeen) (f := f) (by omega) (.inl hn) h
          rw [below_see] at hs
          exact (addGroup_grows hs (.inl rfl) hl).cast (by rw [hownS hn (by rw [hnn]; decide)]; omega)
    case child =>
      intro nd parent s l s' f hf hnn h p
      replace h := parseElementChild_run x h
      have hval : ∀ {n}, nd.attr n = none → nd.value n = none := by intro n h; unfold Nd.value; rw [h]; rfl
      cases h with
      | ref mn mx a n s1 hmn hmx hr hp ht => exact .nil (getTypeName_roots ht : s1.roots = _) (.plain rfl)
      | typed mn mx na docs a c nd' s' hmn hmx hr hn hdo ht hc hp => exact .nil (typeAttr_roots hc).1 (.plain rfl)
      | any mn mx na docs hmn hmx hr hn hdo ht hs hc hp => exact .nil rfl (.plain rfl)
      | inline mn mx na docs v root s1 hmn hmx hr hn hdo ht hsc hp hv hroot =>
        have hR := ih.root (nd := nd.sees childSeen) (f := f) (by omega) (.inl (hval hr)) hroot
        rw [below_see] at hR
        have hone : ownType p nd = 1 := by
          unfold ownType
          rw [hnn, if_neg (by decide), if_neg (by decide), if_pos rfl, if_pos]
          refine ⟨hval hr, hval ht, List.any_eq_true.2 ?_⟩
          have : (∃ c ∈ nd.xsdKids, c.name = c!"simpleType") ∨ ∃ c ∈ nd.xsdKids, c.name = c!"complexType" := by
            refine Classical.byContradiction fun hh => hsc ⟨?_, ?_⟩
            · rw [child_find]
              exact List.find?_eq_none.2 fun c hc => by simpa using fun e => hh (.inl ⟨c, hc, e⟩)
            · rw [child_find]
              exact List.find?_eq_none.2 fun c hc => by simpa using fun e => hh (.inr ⟨c, hc, e⟩)
          rcases this with ⟨c, h1, h2⟩ | ⟨c, h1, h2⟩
          · exact ⟨c, h1, by simp [h2]⟩
          · exact ⟨c, h1, by simp [h2]⟩
        exact Grows.to (((hR.add (n := s.nodeName v false) id).cast (by rw [hone]; omega)).imp fun _ => .plain rfl) rfl

end
end Xsd.Tree
