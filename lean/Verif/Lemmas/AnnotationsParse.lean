import Verif.Lemmas.Annotations
/-!
# Every parser function on schemas without their annotations
-/
namespace Xsd
namespace Ann

/-! ## Simple types and attributes -/

theorem facet_bare (x : Ext) {c : Nd} {f : Str ⊕ Restriction} (h : parseFacet x c = .ok f) : parseFacet x (bareNd c) = .ok f := by
  unfold parseFacet at h ⊢
  rw [show (bareNd c).name = c.name from rfl]
  split at h
  · next hc =>
    rw [if_pos hc]
    obtain ⟨a, h1, h⟩ := Res.bind_eq_ok.1 h
    exact Res.bind_eq_ok.2 ⟨_, tryAttr_bare h1, h⟩
  next hc =>
  rw [if_neg hc]
  split at h
  · next hc =>
    rw [if_pos hc]
    obtain ⟨a, h1, h⟩ := Res.bind_eq_ok.1 h
    obtain ⟨n, h2, h⟩ := Res.bind_eq_ok.1 h
    exact Res.bind_eq_ok.2 ⟨_, tryAttr_bare h1, Res.bind_eq_ok.2 ⟨n, parseUsize_bare h2, h⟩⟩
  next hc =>
  rw [if_neg hc]
  split at h
  · next hc =>
    rw [if_pos hc]
    obtain ⟨a, h1, h⟩ := Res.bind_eq_ok.1 h
    obtain ⟨n, h2, h⟩ := Res.bind_eq_ok.1 h
    exact Res.bind_eq_ok.2 ⟨_, tryAttr_bare h1, Res.bind_eq_ok.2 ⟨n, parseUsize_bare h2, h⟩⟩
  next hc =>
  rw [if_neg hc]
  split at h
  · next hc =>
    rw [if_pos hc]
    obtain ⟨a, h1, h⟩ := Res.bind_eq_ok.1 h
    obtain ⟨n, h2, h⟩ := Res.bind_eq_ok.1 h
    exact Res.bind_eq_ok.2 ⟨_, tryAttr_bare h1, Res.bind_eq_ok.2 ⟨n, parseUsize_bare h2, h⟩⟩
  next hc =>
  rw [if_neg hc]
  split at h
  · next hc =>
    rw [if_pos hc]
    obtain ⟨a, h1, h⟩ := Res.bind_eq_ok.1 h
    exact Res.bind_eq_ok.2 ⟨_, tryAttr_bare h1, h⟩
  next hc =>
  rw [if_neg hc]
  split at h
  · next hc =>
    rw [if_pos hc]
    obtain ⟨a, h1, h⟩ := Res.bind_eq_ok.1 h
    obtain ⟨n, h2, h⟩ := Res.bind_eq_ok.1 h
    exact Res.bind_eq_ok.2 ⟨_, tryAttr_bare h1, Res.bind_eq_ok.2 ⟨n, parseDec_bare h2, h⟩⟩
  next hc =>
  rw [if_neg hc]
  split at h
  · next hc =>
    rw [if_pos hc]
    obtain ⟨a, h1, h⟩ := Res.bind_eq_ok.1 h
    obtain ⟨n, h2, h⟩ := Res.bind_eq_ok.1 h
    exact Res.bind_eq_ok.2 ⟨_, tryAttr_bare h1, Res.bind_eq_ok.2 ⟨n, parseDec_bare h2, h⟩⟩
  next hc =>
  rw [if_neg hc]
  split at h
  · next hc =>
    rw [if_pos hc]
    obtain ⟨a, h1, h⟩ := Res.bind_eq_ok.1 h
    obtain ⟨n, h2, h⟩ := Res.bind_eq_ok.1 h
    exact Res.bind_eq_ok.2 ⟨_, tryAttr_bare h1, Res.bind_eq_ok.2 ⟨n, parseUsize_bare h2, h⟩⟩
  next hc =>
  rw [if_neg hc]
  split at h
  · next hc =>
    rw [if_pos hc]
    obtain ⟨a, h1, h⟩ := Res.bind_eq_ok.1 h
    obtain ⟨n, h2, h⟩ := Res.bind_eq_ok.1 h
    exact Res.bind_eq_ok.2 ⟨_, tryAttr_bare h1, Res.bind_eq_ok.2 ⟨n, parseUsize_bare h2, h⟩⟩
  next hc =>
  rw [if_neg hc]
  cases h

theorem facets_bare (x : Ext) : ∀ (ks : List Nd) (r : List Str × List Restriction), parseFacets x ks = .ok r → parseFacets x (bareNds ks) = .ok r
  | [], _, h => h
  | c :: cs, r, h => by
    rw [parseFacets] at h
    have hn : ¬ c.info.name = annName := by
      intro hn
      have hn' : c.name = c!"annotation" := congrArg QName.loc hn
      unfold parseFacet at h
      rw [hn'] at h
      cases h
    unfold bareNds
    rw [List.filter_cons, if_pos (by simp [hn]), List.map_cons, parseFacets]
    cases hf : parseFacet x c with
    | ok f =>
      rw [hf] at h
      rw [facet_bare x hf]
      cases hq : parseFacets x cs with
      | ok q =>
        rw [hq] at h
        have ih := facets_bare x cs q hq
        unfold bareNds at ih
        rw [ih]
        exact h
      | err e => rw [hq] at h; cases h
      | panic => rw [hq] at h; cases h
      | diverge => rw [hq] at h; cases h
    | err e => rw [hf] at h; cases h
    | panic => rw [hf] at h; cases h
    | diverge => rw [hf] at h; cases h

theorem simpleType_und (x : Ext) (nd : Nd) : Und plainRoot (parseSimpleType x nd) (parseSimpleType x (bareNd nd)) := by
  unfold parseSimpleType
  rw [xsdKids_bare, removeKid_ann]
  refine .bind (.prevent nd) fun _ => .bind (.annotation x _) fun docs => ?_
  simp only
  rw [← bare_removeKid_ann nd.xsdKids]
  refine .bind (.tryKid (by decide)) fun p => ?_
  obtain ⟨rs, rest⟩ := p
  refine .bind (.attrOf rs c!"base") fun attr => .bind (.typeName attr) fun content => ?_
  cases content with
  | literal t =>
    refine .bind .noChildren fun _ => .bind (f := fun a => a) (.lift ?_) fun q => .pure ?_
    · intro r h
      rw [xsdKids_bare]
      exact facets_bare x _ r h
    · split <;> rfl
  | named n => exact .fail
  | fixed n => exact .fail

theorem typeAttr_und (nd : Nd) (attr : XAttr) (p : Name) :
    Und (fun q => (q.1, bareNd q.2)) (parseTypeAttr nd attr p) (parseTypeAttr (bareNd nd) (placelessAttr attr) p) := by
  unfold parseTypeAttr
  refine .bind (.typeName attr) fun content => ?_
  cases content with
  | named n => exact .bind (.discover n p) fun _ => .pure rfl
  | literal t =>
    simp only
    rw [attr_bare]
    cases nd.attr c!"fixed" with
    | some f => exact .pure rfl
    | none => exact .pure rfl
  | fixed f => exact .pure rfl

theorem attrContent_und (x : Ext) (nd : Nd) (name p : Name) (o : Option Nd) :
    Und (fun q => (q.1, bareNd q.2)) (parseAttrContent x nd name p o) (parseAttrContent x (bareNd nd) name p (o.map bareNd)) := by
  unfold parseAttrContent
  cases o with
  | none => exact .bind (.attrOf nd c!"type") fun a => typeAttr_und (nd.see c!"type") a p
  | some c =>
    refine .bind (simpleType_und x c) fun root => ?_
    have key : Und (fun q : LeafContent × Nd => (q.1, bareNd q.2))
        (do
          let data ← nodeName c!"Data"
          let vname ← deriveVirtualName x [p, name, data] false
          addRoot vname root
          discoverType vname p
          pure (.named vname, nd))
        (do
          let data ← nodeName c!"Data"
          let vname ← deriveVirtualName x [p, name, data] false
          addRoot vname (plainRoot root)
          discoverType vname p
          pure (.named vname, bareNd nd)) :=
      .bind (.node _) fun data => .bind (.virtual x _ _) fun vname => .bind (.root vname root) fun _ => .bind (.discover _ _) fun _ => .pure rfl
    cases root with
    | leaf d =>
      obtain ⟨ct, rs, docs⟩ := d
      cases ct with
      | literal t => exact .pure rfl
      | named n => exact key
      | fixed n => exact key
    | enum ns => exact key
    | element d => exact key
    | choice vs v d => exact key

theorem attribute_und (x : Ext) (nd : Nd) (p : Name) : Und (Option.map plainAttr) (parseAttribute x nd p) (parseAttribute x (bareNd nd) p) := by
  unfold parseAttribute
  refine .bind (.attrOf nd c!"name") fun nameAttr => ?_
  have hk : ((bareNd nd).see c!"name").xsdKids = bareNds nd.xsdKids := xsdKids_bare (nd.see c!"name")
  have hk' : (nd.see c!"name").xsdKids = nd.xsdKids := rfl
  simp only [hk, hk', removeKid_ann]
  refine .bind (.annotation x _) fun docs => ?_
  rw [← bare_removeKid_ann nd.xsdKids, removeKid_bare (by decide)]
  refine .bind (attrContent_und x (nd.see c!"name") _ p _) fun q => ?_
  obtain ⟨content, nd1⟩ := q
  refine .bind .noChildren fun _ => ?_
  simp only [attrVal_bare]
  refine .ite (fun _ => .pure rfl) fun _ => .ite (fun _ => .ite (fun _ => .fail) fun _ => .bind (.prevent ((nd1.see c!"default").see c!"use")) fun _ => .pure rfl) fun _ => .fail

theorem attributes_und (x : Ext) (p : Name) : ∀ ks : List Nd, (∀ k ∈ ks, ¬ k.info.name = annName) →
    Und (List.map plainAttr) (parseAttributes x p ks) (parseAttributes x p (bareNds ks))
  | [], _ => .pure rfl
  | c :: cs, h => by
    have ih := attributes_und x p cs fun k hk => h k (List.mem_cons_of_mem _ hk)
    have he : bareNds (c :: cs) = bareNd c :: bareNds cs := by
      unfold bareNds
      rw [List.filter_cons, if_pos (by simp [h c List.mem_cons_self]), List.map_cons]
    rw [he, parseAttributes, parseAttributes]
    refine .bind (attribute_und x c p) fun a => .bind ih fun as => .pure ?_
    cases a <;> rfl

theorem removeKids_ne {n : Str} (hn : n ≠ c!"annotation") (ks : List Nd) : ∀ k ∈ (removeKids n ks).1, ¬ k.info.name = annName := by
  intro k hk h
  unfold removeKids at hk
  have := of_decide_eq_true (List.mem_filter.1 hk).2
  rw [h] at this
  exact hn (congrArg QName.loc this).symm

theorem simpleContent_und (x : Ext) (nd : Nd) (p : Name) : Und plainElem (parseSimpleContent x nd p) (parseSimpleContent x (bareNd nd) p) := by
  unfold parseSimpleContent
  rw [xsdKids_bare]
  refine .bind (.prevent nd) fun _ => .bind (.tryKid (by decide)) fun q => ?_
  obtain ⟨ext, rest⟩ := q
  refine .bind .noChildren fun _ => .bind (.attrOf ext c!"base") fun base => .bind (.typeName base) fun content => ?_
  simp only
  rw [xsdKids_bare, removeKids_bare (by decide)]
  refine .bind (f := fun a => a) ?_ fun leafName => .bind (attributes_und x p _ (removeKids_ne (by decide) _)) fun as => .bind .noChildren fun _ => .pure rfl
  cases content with
  | named n => exact .bind (.discover n p) fun _ => .pure rfl
  | literal t => exact .pure rfl
  | fixed f => exact .pure rfl

/-! ## Loops and groups -/

theorem leaves_und {g g' : Nd → P (Option Leaf)} (h : ∀ c, Und (Option.map plainLeaf) (g c) (g' (bareNd c)))
    (ha : ∀ c, c.info.name = annName → g c = pure none) :
    ∀ ks : List Nd, Und (List.map plainLeaf) (parseLeaves g ks) (parseLeaves g' (bareNds ks))
  | [] => .pure rfl
  | c :: cs => by
    have ih := leaves_und h ha cs
    unfold bareNds at ih ⊢
    rw [parseLeaves, List.filter_cons]
    by_cases hc : c.info.name = annName
    · rw [if_neg (by simp [hc]), ha c hc]
      intro s a s' hs
      obtain ⟨ls, s2, h2, h3⟩ := P.bind_ok.1 (show (parseLeaves g cs >>= fun ls => pure ls) s = .ok (a, s') from hs)
      obtain ⟨rfl, rfl⟩ := P.pure_ok.1 h3
      exact ih _ _ _ h2
    · rw [if_pos (by simp [hc]), List.map_cons, parseLeaves]
      refine .bind (h c) fun a => .bind ih fun as => .pure ?_
      cases a <;> rfl

theorem plain_names (ls : List Leaf) : (ls.map plainLeaf).map Leaf.name = ls.map Leaf.name := by
  rw [List.map_map]; rfl

theorem addGroup_und (x : Ext) (p : Name) (ls : List Leaf) (sfx : List Name) (root : Root) (docs : Option Str) (mn : Nat) (mx : MaxOccurs) :
    Und plainLeaf (addGroup x p ls sfx root docs mn mx) (addGroup x p (ls.map plainLeaf) sfx (plainRoot root) none mn mx) := by
  unfold addGroup
  rw [plain_names]
  exact .bind (.virtual x _ _) fun leafName => .bind (.virtual x _ _) fun rootName => .bind (.root rootName root) fun _ => .bind (.discover _ _) fun _ => .pure rfl

theorem plain_withDocs (r : Root) (docs : Option Str) : plainRoot (r.withDocs docs) = plainRoot r := by
  unfold Root.withDocs
  split
  · cases r <;> rfl
  · rfl

theorem plain_elemDocs (d : ElementDef) (docs : Option Str) : plainElem (d.withDocs docs) = plainElem d := by
  unfold ElementDef.withDocs
  split <;> rfl

/-! ## The mutually recursive functions -/

/-- What is to be shown of all functions of the parser, for one amount of fuel. -/
structure AnnOK (x : Ext) (k : Nat) : Prop where
  root : ∀ k' nd p, Und plainRoot (parseRoot x k nd p) (parseRoot x k' (bareNd nd) p)
  element : ∀ k' nd p, Und plainRoot (parseElementRoot x k nd p) (parseElementRoot x k' (bareNd nd) p)
  complexType : ∀ k' nd p, Und plainRoot (parseComplexType x k nd p) (parseComplexType x k' (bareNd nd) p)
  particle : ∀ k' ks p, Und (fun q => (q.1.map plainContent, bareNds q.2)) (parseParticle x k ks p) (parseParticle x k' (bareNds ks) p)
  complexContent : ∀ k' nd p, Und plainElem (parseComplexContent x k nd p) (parseComplexContent x k' (bareNd nd) p)
  extension : ∀ k' o b p, Und (List.map plainLeaf) (parseExtension x k o b p) (parseExtension x k' (o.map bareNd) b p)
  sequence : ∀ k' nd p, Und (List.map plainLeaf) (parseSequence x k nd p) (parseSequence x k' (bareNd nd) p)
  choice : ∀ k' nd p, Und (List.map plainLeaf) (parseChoice x k nd p) (parseChoice x k' (bareNd nd) p)
  child : ∀ k' nd p, Und plainLeaf (parseElementChild x k nd p) (parseElementChild x k' (bareNd nd) p)

theorem annOK_zero (x : Ext) : AnnOK x 0 := by
  refine ⟨?_, ?_, ?_, ?_, ?_, ?_, ?_, ?_, ?_⟩
  · intros; unfold parseRoot; exact .left
  · intros; unfold parseElementRoot; exact .left
  · intros; unfold parseComplexType; exact .left
  · intros; unfold parseParticle; exact .left
  · intros; unfold parseComplexContent; exact .left
  · intros; unfold parseExtension; exact .left
  · intros; unfold parseSequence; exact .left
  · intros; unfold parseChoice; exact .left
  · intros; unfold parseElementChild; exact .left

section
variable {x : Ext} {k : Nat} (ih : AnnOK x k)
include ih

theorem root_und (k' : Nat) (nd : Nd) (p : Name) : Und plainRoot (parseRoot x (k + 1) nd p) (parseRoot x k' (bareNd nd) p) := by
  cases k' with
  | zero => unfold parseRoot; exact .right
  | succ k' =>
    unfold parseRoot
    exact .ite (fun _ => ih.element k' nd p) fun _ => .ite (fun _ => ih.complexType k' nd p) fun _ => .ite (fun _ => simpleType_und x nd) fun _ => .fail

theorem element_und (k' : Nat) (nd : Nd) (p : Name) : Und plainRoot (parseElementRoot x (k + 1) nd p) (parseElementRoot x k' (bareNd nd) p) := by
  cases k' with
  | zero => unfold parseElementRoot; exact .right
  | succ k' =>
    unfold parseElementRoot
    simp only
    rw [xsdKids_bare, removeKid_ann, ← bare_removeKid_ann nd.xsdKids]
    generalize hr : removeKid c!"annotation" nd.xsdKids = r
    refine .bind (.annotation x _) fun docs => ?_
    rw [attr_bare]
    cases nd.attr c!"type" with
    | some attr =>
      refine .bind (typeAttr_und (nd.see c!"type") attr p) fun q => ?_
      obtain ⟨content, nd1⟩ := q
      exact .bind (.prevent nd1) fun _ => .bind .noChildren fun _ => .pure rfl
    | none =>
      refine .bind (.prevent (nd.see c!"type")) fun _ => ?_
      simp only
      rw [removeKid_bare (n := c!"complexType") (by decide), removeKid_bare (n := c!"simpleType") (by decide)]
      rcases removeKid c!"complexType" r.2 with ⟨_ | c, rest⟩
      · rcases removeKid c!"simpleType" r.2 with ⟨_ | c, rest⟩
        · exact .fail
        · exact .bind (simpleType_und x c) fun root => .bind .noChildren fun _ => .pure (plain_withDocs root docs)
      · exact .bind (ih.complexType k' c p) fun root => .bind .noChildren fun _ => .pure (plain_withDocs root docs)

theorem complexType_und (k' : Nat) (nd : Nd) (p : Name) : Und plainRoot (parseComplexType x (k + 1) nd p) (parseComplexType x k' (bareNd nd) p) := by
  cases k' with
  | zero => unfold parseComplexType; exact .right
  | succ k' =>
    unfold parseComplexType
    simp only [attrVal_bare]
    rw [xsdKids_bare, removeKid_ann, ← bare_removeKid_ann nd.xsdKids]
    generalize hr : removeKid c!"annotation" nd.xsdKids = r
    refine .ite (fun _ => .fail) fun _ => .bind (.prevent (nd.see c!"mixed")) fun _ => .bind (.annotation x _) fun docs => ?_
    simp only
    rw [removeKid_bare (n := c!"simpleContent") (by decide), removeKid_bare (n := c!"complexContent") (by decide)]
    rcases removeKid c!"simpleContent" r.2 with ⟨_ | c, rest⟩
    · rcases removeKid c!"complexContent" r.2 with ⟨_ | c, rest⟩
      · refine .bind (ih.particle k' r.2 p) fun q => ?_
        obtain ⟨content, rest⟩ := q
        simp only
        rw [removeKids_bare (by decide)]
        exact .bind (attributes_und x p _ (removeKids_ne (by decide) _)) fun as => .bind .noChildren fun _ => .pure rfl
      · exact .bind .noChildren fun _ => .bind (ih.complexContent k' c p) fun d => .pure (congrArg Root.element (plain_elemDocs d docs))
    · exact .bind .noChildren fun _ => .bind (simpleContent_und x c p) fun d => .pure (congrArg Root.element (plain_elemDocs d docs))

theorem particle_und (k' : Nat) (ks : List Nd) (p : Name) :
    Und (fun q => (q.1.map plainContent, bareNds q.2)) (parseParticle x (k + 1) ks p) (parseParticle x k' (bareNds ks) p) := by
  cases k' with
  | zero => unfold parseParticle; exact .right
  | succ k' =>
    unfold parseParticle
    rw [removeKid_bare (n := c!"sequence") (by decide), removeKid_bare (n := c!"all") (by decide), removeKid_bare (n := c!"choice") (by decide)]
    have seq : ∀ (c : Nd) (rest : List Nd), Und (fun q : Option ElementContent × List Nd => (q.1.map plainContent, bareNds q.2))
        (do
          let isUnordered := decide (c.name = c!"all")
          let minOccurs ← P.lift (parseMinOccurs (c.attr c!"minOccurs"))
          let maxOccurs ← P.lift (parseMaxOccurs (c.attr c!"maxOccurs"))
          let child := (c.see c!"minOccurs").see c!"maxOccurs"
          let leaves ← parseSequence x k child p
          let leaves := if isUnordered then leaves.map (fun l => { l with isUnordered := true }) else leaves
          if maxOccurs.isVec = true ∨ minOccurs ≠ 1 then do
            let leaf ← addGroup x p leaves [] (groupRoot leaves) none minOccurs maxOccurs
            pure (some (.leaves [leaf]), rest)
          else pure (some (.leaves leaves), rest))
        (do
          let isUnordered := decide ((bareNd c).name = c!"all")
          let minOccurs ← P.lift (parseMinOccurs ((bareNd c).attr c!"minOccurs"))
          let maxOccurs ← P.lift (parseMaxOccurs ((bareNd c).attr c!"maxOccurs"))
          let child := ((bareNd c).see c!"minOccurs").see c!"maxOccurs"
          let leaves ← parseSequence x k' child p
          let leaves := if isUnordered then leaves.map (fun l => { l with isUnordered := true }) else leaves
          if maxOccurs.isVec = true ∨ minOccurs ≠ 1 then do
            let leaf ← addGroup x p leaves [] (groupRoot leaves) none minOccurs maxOccurs
            pure (some (.leaves [leaf]), bareNds rest)
          else pure (some (.leaves leaves), bareNds rest)) := by
      intro c rest
      refine .bind (.minOccurs c c!"minOccurs") fun mn => .bind (.maxOccurs c c!"maxOccurs") fun mx => ?_
      refine .bind (ih.sequence k' ((c.see c!"minOccurs").see c!"maxOccurs") p) fun ls => ?_
      simp only
      have hu : (if decide ((bareNd c).name = c!"all") = true then (ls.map plainLeaf).map (fun l => { l with isUnordered := true }) else ls.map plainLeaf) =
          (if decide (c.name = c!"all") = true then ls.map (fun l => { l with isUnordered := true }) else ls).map plainLeaf := by
        show (if decide (c.name = c!"all") = true then _ else _) = _
        split
        · rw [List.map_map, List.map_map]; rfl
        · rfl
      rw [hu]
      generalize (if decide (c.name = c!"all") = true then ls.map (fun l => { l with isUnordered := true }) else ls) = ls'
      refine .ite (fun _ => .bind (addGroup_und x p ls' [] (groupRoot ls') none mn mx) fun l => .pure rfl) fun _ => .pure rfl
    rcases removeKid c!"sequence" ks with ⟨_ | c, rest⟩
    · simp only
      rcases removeKid c!"all" ks with ⟨_ | c, rest⟩
      · simp only
        rcases removeKid c!"choice" ks with ⟨_ | c, rest⟩
        · exact .pure rfl
        · refine .bind (ih.choice k' c p) fun vs => .bind (.node _) fun data => .bind (.virtual x _ _) fun rn => .bind (.root rn (.choice vs false none)) fun _ => .bind (.discover _ _) fun _ => .pure rfl
      · exact seq c rest
    · exact seq c rest

theorem extension_und (k' : Nat) (o : Option Nd) (b p : Name) :
    Und (List.map plainLeaf) (parseExtension x (k + 1) o b p) (parseExtension x k' (o.map bareNd) b p) := by
  cases k' with
  | zero => unfold parseExtension; exact .right
  | succ k' =>
    cases o with
    | none => unfold parseExtension; exact .pure rfl
    | some c =>
      unfold parseExtension
      refine .bind (.minOccurs c c!"minOccurs") fun mn => .bind (ih.sequence k' (c.see c!"minOccurs") p) fun ls => ?_
      exact .bind (.node _) fun ln => .bind (.virtual x _ _) fun rn => .bind (.root rn (groupRoot ls)) fun _ => .bind (.discover _ _) fun _ => .pure rfl

theorem complexContent_und (k' : Nat) (nd : Nd) (p : Name) :
    Und plainElem (parseComplexContent x (k + 1) nd p) (parseComplexContent x k' (bareNd nd) p) := by
  cases k' with
  | zero => unfold parseComplexContent; exact .right
  | succ k' =>
    unfold parseComplexContent
    rw [xsdKids_bare]
    refine .bind (.prevent nd) fun _ => .bind (.tryKid (by decide)) fun q => ?_
    obtain ⟨ext, rest⟩ := q
    refine .bind .noChildren fun _ => .bind (.attrOf ext c!"base") fun base => .bind (.typeName base) fun content => ?_
    cases content with
    | literal t => exact .fail
    | fixed f => exact .fail
    | named n =>
      refine .bind (.discover n p) fun _ => ?_
      simp only
      rw [xsdKids_bare, removeKid_bare (n := c!"sequence") (by decide)]
      refine .bind (ih.extension k' _ n p) fun ls => ?_
      have hk : (if ((removeKid c!"sequence" ext.xsdKids).1.map bareNd).isSome = true then bareNds (removeKid c!"sequence" ext.xsdKids).2 else bareNds ext.xsdKids) =
          bareNds (if (removeKid c!"sequence" ext.xsdKids).1.isSome = true then (removeKid c!"sequence" ext.xsdKids).2 else ext.xsdKids) := by
        rw [Option.isSome_map]
        split <;> rfl
      simp only
      rw [hk, removeKids_bare (by decide)]
      refine .bind (attributes_und x p _ (removeKids_ne (by decide) _)) fun as => .bind .noChildren fun _ => ?_
      cases ls with
      | nil => exact .pure rfl
      | cons l ls =>
        rw [if_neg (by simp), if_neg (by simp)]
        exact .bind (.node _) fun b => .pure rfl

theorem sequence_und (k' : Nat) (nd : Nd) (p : Name) : Und (List.map plainLeaf) (parseSequence x (k + 1) nd p) (parseSequence x k' (bareNd nd) p) := by
  cases k' with
  | zero => unfold parseSequence; exact .right
  | succ k' =>
    unfold parseSequence
    rw [xsdKids_bare]
    refine .bind (.prevent nd) fun _ => leaves_und ?_ ?_ _
    · intro c
      refine .ite (fun _ => .bind (ih.child k' c p) fun l => .pure rfl) fun _ => .ite (fun _ => ?_) fun _ => .ite (fun _ => ?_) fun _ => .ite (fun _ => .pure rfl) fun _ => .fail
      · refine .bind (.minOccurs c c!"minOccurs") fun mn => .bind (.maxOccurs c c!"maxOccurs") fun mx => ?_
        exact .bind (ih.choice k' ((c.see c!"minOccurs").see c!"maxOccurs") p) fun vs => .bind (addGroup_und x p vs [] (.choice vs true none) none mn mx) fun l => .pure rfl
      · rw [child_none]
        refine .bind (.annotation x _) fun docs => .bind (.minOccurs c c!"minOccurs") fun mn => ?_
        exact .bind (ih.sequence k' (c.see c!"minOccurs") p) fun ls => .bind (addGroup_und x p ls [] (groupRoot ls) docs mn _) fun l => .pure rfl
    · intro c hc
      have hn : c.name = c!"annotation" := congrArg QName.loc hc
      rw [hn]
      rfl

theorem choice_und (k' : Nat) (nd : Nd) (p : Name) : Und (List.map plainLeaf) (parseChoice x (k + 1) nd p) (parseChoice x k' (bareNd nd) p) := by
  cases k' with
  | zero => unfold parseChoice; exact .right
  | succ k' =>
    unfold parseChoice
    rw [xsdKids_bare]
    refine .bind (.prevent nd) fun _ => leaves_und ?_ ?_ _
    · intro c
      refine .ite (fun _ => .bind (ih.child k' c p) fun l => .pure rfl) fun _ => .ite (fun _ => ?_) fun _ => .ite (fun _ => .pure rfl) fun _ => .fail
      rw [child_none]
      refine .bind (.annotation x _) fun docs => .bind (.minOccurs c c!"minOccurs") fun mn => .bind (.maxOccurs c c!"maxOccurs") fun mx => ?_
      exact .bind (ih.sequence k' ((c.see c!"minOccurs").see c!"maxOccurs") p) fun ls => .bind (.node _) fun v => .bind (addGroup_und x p ls [v] (groupRoot ls) docs mn mx) fun l => .pure rfl
    · intro c hc
      have hn : c.name = c!"annotation" := congrArg QName.loc hc
      rw [hn]
      rfl

theorem child_und (k' : Nat) (nd : Nd) (p : Name) : Und plainLeaf (parseElementChild x (k + 1) nd p) (parseElementChild x k' (bareNd nd) p) := by
  cases k' with
  | zero => unfold parseElementChild; exact .right
  | succ k' =>
    unfold parseElementChild
    refine .bind (.minOccurs nd c!"minOccurs") fun mn => .bind (.maxOccurs nd c!"maxOccurs") fun mx => ?_
    have he : (((bareNd nd).see c!"minOccurs").see c!"maxOccurs").see c!"ref" = bareNd (((nd.see c!"minOccurs").see c!"maxOccurs").see c!"ref") := rfl
    simp only [he]
    generalize ((nd.see c!"minOccurs").see c!"maxOccurs").see c!"ref" = nd
    rw [attr_bare]
    cases nd.attr c!"ref" with
    | some attr =>
      refine .bind (.prevent nd) fun _ => .bind (.typeName attr) fun content => ?_
      cases content with
      | named n => exact .bind (.discover n p) fun _ => .pure rfl
      | literal t => exact .fail
      | fixed f => exact .fail
    | none =>
      refine .bind (.attrOf nd c!"name") fun nameAttr => .bind (.node _) fun name => ?_
      have he : ((((bareNd nd).see c!"name").see c!"default").see c!"form").see c!"type" = bareNd ((((nd.see c!"name").see c!"default").see c!"form").see c!"type") := rfl
      simp only [he]
      generalize (((nd.see c!"name").see c!"default").see c!"form").see c!"type" = nd
      rw [child_none, child_bare nd (n := c!"simpleType") (by decide), child_bare nd (n := c!"complexType") (by decide)]
      refine .bind (.annotation x _) fun docs => ?_
      rw [attr_bare]
      cases nd.attr c!"type" with
      | some attr =>
        refine .bind (typeAttr_und nd attr p) fun q => ?_
        obtain ⟨content, nd1⟩ := q
        exact .bind (.prevent nd1) fun _ => .pure rfl
      | none =>
        simp only [Option.isNone_map]
        refine .ite (fun _ => .bind (.prevent nd) fun _ => .pure rfl) fun _ => ?_
        refine .bind (.prevent nd) fun _ => .bind (.node _) fun data => .bind (.virtual x _ _) fun vn => ?_
        exact .bind (ih.root k' nd vn) fun root => .bind (.root vn root) fun _ => .bind (.discover _ _) fun _ => .pure rfl

end

theorem annOK (x : Ext) (k : Nat) : AnnOK x k := by
  induction k with
  | zero => exact annOK_zero x
  | succ k ih =>
    exact ⟨root_und ih, element_und ih, complexType_und ih, particle_und ih, complexContent_und ih, extension_und ih, sequence_und ih, choice_und ih, child_und ih⟩

end Ann
end Xsd
