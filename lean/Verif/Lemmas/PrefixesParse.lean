import Verif.Lemmas.Prefixes
/-!
# Every parser function on schemas with other prefixes
-/
namespace Xsd
namespace Pre

variable {E : Setting}

/-! ## Simple types and attributes -/

theorem facet_re (x : Ext) (c : Nd) : Alike (fun f => f) (parseFacet x c) (parseFacet x (reNd E.R c)) := by
  unfold parseFacet
  have hn : c!"value" ∉ qualified := by decide
  refine .ite (fun _ => .attr E.R hn fun a ha => .ok' (by rw [ha])) fun _ => ?_
  refine .ite (fun _ => .attr E.R hn fun a ha => .bind (usize_re ha) fun n => .ok _) fun _ => ?_
  refine .ite (fun _ => .attr E.R hn fun a ha => .bind (usize_re ha) fun n => .ok _) fun _ => ?_
  refine .ite (fun _ => .attr E.R hn fun a ha => .bind (usize_re ha) fun n => .ok _) fun _ => ?_
  refine .ite (fun _ => .attr E.R hn fun a ha => .ok' (by rw [ha])) fun _ => ?_
  refine .ite (fun _ => .attr E.R hn fun a ha => .bind (dec_re x ha) fun n => .ok _) fun _ => ?_
  refine .ite (fun _ => .attr E.R hn fun a ha => .bind (dec_re x ha) fun n => .ok _) fun _ => ?_
  refine .ite (fun _ => .attr E.R hn fun a ha => .bind (usize_re ha) fun n => .ok _) fun _ => ?_
  exact .ite (fun _ => .attr E.R hn fun a ha => .bind (usize_re ha) fun n => .ok _) fun _ => .err _ _

theorem facets_re (x : Ext) : ∀ ks : List Nd, Alike (fun r => r) (parseFacets x ks) (parseFacets x (ks.map (reNd E.R)))
  | [] => .ok _
  | c :: cs => by
    rw [List.map_cons, parseFacets, parseFacets]
    exact .bind (facet_re x c) fun f => .bind (facets_re x cs) fun r => .ok _

theorem simpleType_re (x : Ext) {nd : Nd} (hg : Good E nd) : Ren E (fun r => r) (parseSimpleType x nd) (parseSimpleType x (reNd E.R nd)) := by
  unfold parseSimpleType
  rw [xsdKids_re, removeKid_re]
  refine .bind (.prevent nd) fun _ => .bind (.annotation x _) fun docs => .tryKid (good_rest (good_xsdKids hg)) fun rs rest hrs => ?_
  refine .typeOf hrs (by decide) fun attr hq ha => .bind (typeName_re hq ha) fun content => ?_
  cases content with
  | literal t =>
    refine .bind .noChildren fun _ => .bind (f := fun a => a) (.lift ?_) fun q => .pure rfl
    rw [xsdKids_re]
    exact facets_re x _
  | named n => exact .fail
  | fixed n => exact .fail

theorem typeAttr_re (nd : Nd) {attr : XAttr} (hq : attr.loc ∈ qualified) (ha : GoodAttr E attr) (p : Name) :
    Ren E (fun q => (q.1, reNd E.R q.2)) (parseTypeAttr nd attr p) (parseTypeAttr (reNd E.R nd) (reAttr E.R attr) p) := by
  unfold parseTypeAttr
  refine .bind (typeName_re hq ha) fun content => ?_
  cases content with
  | named n => exact .bind (.discover n p) fun _ => .pure rfl
  | literal t =>
    simp only
    rw [attr_re]
    cases h : nd.attr c!"fixed" with
    | some f =>
      refine .pure ?_
      rw [value_re E.R (a := f) (by rw [attr_loc h]; decide)]
      rfl
    | none => exact .pure rfl
  | fixed f => exact .pure rfl

theorem attrContent_re (x : Ext) {nd : Nd} (hg : Good E nd) (name p : Name) (o : Option Nd) (ho : ∀ c, o = some c → Good E c) :
    Ren E (fun q => (q.1, reNd E.R q.2)) (parseAttrContent x nd name p o) (parseAttrContent x (reNd E.R nd) name p (o.map (reNd E.R))) := by
  unfold parseAttrContent
  cases o with
  | none => exact .typeOf hg (by decide) fun a hq ha => typeAttr_re (nd.see c!"type") hq ha p
  | some c =>
    refine .bind (simpleType_re x (ho c rfl)) fun root => ?_
    have key : Ren E (fun q : LeafContent × Nd => (q.1, reNd E.R q.2))
        (do
          let data ← nodeName c!"Data"
          let vname ← deriveVirtualName x [p, name, data] false
          addRoot vname root
          discoverType vname p
          pure (.named vname, nd))
        (do
          let data ← nodeName c!"Data"
          let vname ← deriveVirtualName x [p, name, data] false
          addRoot vname root
          discoverType vname p
          pure (.named vname, reNd E.R nd)) :=
      .bind (.node _) fun data => .bind (.virtual x _ _) fun vname => .bind (.root vname root) fun _ => .bind (.discover _ _) fun _ => .pure rfl
    cases root with
    | leaf d =>
      obtain ⟨ct, rs, docs⟩ := d
      cases ct with
      | literal t => exact .pure rfl
      | named n => exact key
      | fixed n => exact key
    | enum ns => exact key
    | element d => exact key
    | choice vs v d => exact key

theorem attribute_re (x : Ext) {nd : Nd} (hg : Good E nd) (p : Name) : Ren E (fun a => a) (parseAttribute x nd p) (parseAttribute x (reNd E.R nd) p) := by
  unfold parseAttribute
  refine .valueOf (by decide) fun nameAttr hv => ?_
  have hk : ((reNd E.R nd).see c!"name").xsdKids = nd.xsdKids.map (reNd E.R) := xsdKids_re E.R (nd.see c!"name")
  have hk' : (nd.see c!"name").xsdKids = nd.xsdKids := rfl
  simp only [hk, hk', removeKid_re, hv]
  refine .bind (.annotation x _) fun docs => .bind (attrContent_re x (nd := nd.see c!"name") hg _ p _ fun c hc => good_rest (good_xsdKids hg) c ((removeKid_sub _ _).1 c hc)) fun q => ?_
  obtain ⟨content, nd1⟩ := q
  refine .bind .noChildren fun _ => ?_
  simp only [attrVal_re E.R nd1 (n := c!"default") (by decide), attrVal_re E.R nd1 (n := c!"use") (by decide)]
  refine .ite (fun _ => .pure rfl) fun _ => .ite (fun _ => .ite (fun _ => .fail) fun _ => .bind (.prevent ((nd1.see c!"default").see c!"use")) fun _ => .pure rfl) fun _ => .fail

theorem attributes_re (x : Ext) (p : Name) : ∀ ks : List Nd, (∀ k ∈ ks, Good E k) → Ren E (fun a => a) (parseAttributes x p ks) (parseAttributes x p (ks.map (reNd E.R)))
  | [], _ => .pure rfl
  | c :: cs, h => by
    rw [List.map_cons, parseAttributes, parseAttributes]
    exact .bind (attribute_re x (h c List.mem_cons_self) p) fun a => .bind (attributes_re x p cs fun k hk => h k (List.mem_cons_of_mem _ hk)) fun as => .pure rfl

theorem simpleContent_re (x : Ext) {nd : Nd} (hg : Good E nd) (p : Name) : Ren E (fun d => d) (parseSimpleContent x nd p) (parseSimpleContent x (reNd E.R nd) p) := by
  unfold parseSimpleContent
  rw [xsdKids_re]
  refine .bind (.prevent nd) fun _ => .tryKid (good_xsdKids hg) fun ext rest hext => ?_
  refine .bind .noChildren fun _ => .typeOf hext (by decide) fun base hq hb => .bind (typeName_re hq hb) fun content => ?_
  simp only
  rw [xsdKids_re, removeKids_re]
  refine .bind (f := fun a => a) ?_ fun leafName => .bind (attributes_re x p _ (good_all (good_xsdKids hext))) fun as => .bind .noChildren fun _ => .pure rfl
  cases content with
  | named n => exact .bind (.discover n p) fun _ => .pure rfl
  | literal t => exact .pure rfl
  | fixed f => exact .pure rfl

/-! ## Loops and groups -/

theorem leaves_re {g g' : Nd → P (Option Leaf)} (h : ∀ c, Good E c → Ren E (fun l => l) (g c) (g' (reNd E.R c))) :
    ∀ ks : List Nd, (∀ k ∈ ks, Good E k) → Ren E (fun l => l) (parseLeaves g ks) (parseLeaves g' (ks.map (reNd E.R)))
  | [], _ => .pure rfl
  | c :: cs, hg => by
    rw [List.map_cons, parseLeaves, parseLeaves]
    exact .bind (h c (hg c List.mem_cons_self)) fun a => .bind (leaves_re h cs fun k hk => hg k (List.mem_cons_of_mem _ hk)) fun as => .pure rfl

theorem addGroup_re (x : Ext) (p : Name) (ls : List Leaf) (sfx : List Name) (root : Root) (docs : Option Str) (mn : Nat) (mx : MaxOccurs) :
    Ren E (fun l => l) (addGroup x p ls sfx root docs mn mx) (addGroup x p ls sfx root docs mn mx) := by
  unfold addGroup
  exact .bind (.virtual x _ _) fun leafName => .bind (.virtual x _ _) fun rootName => .bind (.root rootName root) fun _ => .bind (.discover _ _) fun _ => .pure rfl

theorem particle_rest (x : Ext) {k : Nat} {ks : List Nd} {p : Name} {q : Option ElementContent × List Nd} {s s' : PCtx}
    (h : parseParticle x k ks p s = .ok (q, s')) : ∀ c ∈ q.2, c ∈ ks := by
  cases k with
  | zero => unfold parseParticle at h; cases h
  | succ k =>
    obtain ⟨content, rest⟩ := q
    have sub : ∀ {c rest}, sequenceOrAll ks = (some c, rest) → ∀ c ∈ rest, c ∈ ks := by
      intro c rest hk
      unfold sequenceOrAll at hk
      split at hk
      · next hk' =>
        cases hk
        have := (removeKid_sub c!"sequence" ks).2
        rw [hk'] at this
        exact this
      · have := (removeKid_sub c!"all" ks).2
        rw [hk] at this
        exact this
    cases parseParticle_run x h with
    | group _ _ _ _ _ _ _ _ hk => exact sub hk
    | sequence _ _ _ _ _ _ hk => exact sub hk
    | choice _ _ _ _ _ _ hk =>
      have := (removeKid_sub c!"choice" ks).2
      rw [hk] at this
      exact this
    | none => exact fun c hc => hc

/-! ## The mutually recursive functions -/

/-- What is to be shown of all functions of the parser, for one amount of fuel. -/
structure PreOK (E : Setting) (x : Ext) (k : Nat) : Prop where
  root : ∀ nd, Good E nd → ∀ p, Ren E (fun r => r) (parseRoot x k nd p) (parseRoot x k (reNd E.R nd) p)
  element : ∀ nd, Good E nd → ∀ p, Ren E (fun r => r) (parseElementRoot x k nd p) (parseElementRoot x k (reNd E.R nd) p)
  complexType : ∀ nd, Good E nd → ∀ p, Ren E (fun r => r) (parseComplexType x k nd p) (parseComplexType x k (reNd E.R nd) p)
  particle : ∀ ks, (∀ k ∈ ks, Good E k) → ∀ p, Ren E (fun q => (q.1, q.2.map (reNd E.R))) (parseParticle x k ks p) (parseParticle x k (ks.map (reNd E.R)) p)
  complexContent : ∀ nd, Good E nd → ∀ p, Ren E (fun d => d) (parseComplexContent x k nd p) (parseComplexContent x k (reNd E.R nd) p)
  extension : ∀ o, (∀ c, o = some c → Good E c) → ∀ b p, Ren E (fun l => l) (parseExtension x k o b p) (parseExtension x k (o.map (reNd E.R)) b p)
  sequence : ∀ nd, Good E nd → ∀ p, Ren E (fun l => l) (parseSequence x k nd p) (parseSequence x k (reNd E.R nd) p)
  choice : ∀ nd, Good E nd → ∀ p, Ren E (fun l => l) (parseChoice x k nd p) (parseChoice x k (reNd E.R nd) p)
  child : ∀ nd, Good E nd → ∀ p, Ren E (fun l => l) (parseElementChild x k nd p) (parseElementChild x k (reNd E.R nd) p)

theorem preOK_zero (x : Ext) : PreOK E x 0 := by
  refine ⟨?_, ?_, ?_, ?_, ?_, ?_, ?_, ?_, ?_⟩
  · intros; unfold parseRoot; exact .diverge
  · intros; unfold parseElementRoot; exact .diverge
  · intros; unfold parseComplexType; exact .diverge
  · intros; unfold parseParticle; exact .diverge
  · intros; unfold parseComplexContent; exact .diverge
  · intros; unfold parseExtension; exact .diverge
  · intros; unfold parseSequence; exact .diverge
  · intros; unfold parseChoice; exact .diverge
  · intros; unfold parseElementChild; exact .diverge

section
variable {x : Ext} {k : Nat} (ih : PreOK E x k)
include ih

theorem root_re (nd : Nd) (hg : Good E nd) (p : Name) : Ren E (fun r => r) (parseRoot x (k + 1) nd p) (parseRoot x (k + 1) (reNd E.R nd) p) := by
  unfold parseRoot
  exact .ite (fun _ => ih.element nd hg p) fun _ => .ite (fun _ => ih.complexType nd hg p) fun _ => .ite (fun _ => simpleType_re x hg) fun _ => .fail

theorem element_re (nd : Nd) (hg : Good E nd) (p : Name) : Ren E (fun r => r) (parseElementRoot x (k + 1) nd p) (parseElementRoot x (k + 1) (reNd E.R nd) p) := by
  unfold parseElementRoot
  simp only
  rw [xsdKids_re, removeKid_re]
  have hr := good_rest (n := c!"annotation") (good_xsdKids hg)
  generalize removeKid c!"annotation" nd.xsdKids = r at hr ⊢
  refine .bind (.annotation x _) fun docs => ?_
  rw [attr_re]
  cases h : nd.attr c!"type" with
  | some attr =>
    refine .bind (typeAttr_re (nd.see c!"type") (by rw [attr_loc h]; decide) (good_attr hg h) p) fun q => ?_
    obtain ⟨content, nd1⟩ := q
    exact .bind (.prevent nd1) fun _ => .bind .noChildren fun _ => .pure rfl
  | none =>
    refine .bind (.prevent (nd.see c!"type")) fun _ => ?_
    simp only
    rw [removeKid_re, removeKid_re]
    rcases hk : removeKid c!"complexType" r.2 with ⟨_ | c, rest⟩
    · rcases hk' : removeKid c!"simpleType" r.2 with ⟨_ | c, rest⟩
      · exact .fail
      · exact .bind (simpleType_re x (good_kid hr hk')) fun root => .bind .noChildren fun _ => .pure rfl
    · exact .bind (ih.complexType c (good_kid hr hk) p) fun root => .bind .noChildren fun _ => .pure rfl

theorem complexType_re (nd : Nd) (hg : Good E nd) (p : Name) : Ren E (fun r => r) (parseComplexType x (k + 1) nd p) (parseComplexType x (k + 1) (reNd E.R nd) p) := by
  unfold parseComplexType
  simp only [attrVal_re E.R nd (n := c!"mixed") (by decide)]
  rw [xsdKids_re, removeKid_re]
  have hr := good_rest (n := c!"annotation") (good_xsdKids hg)
  generalize removeKid c!"annotation" nd.xsdKids = r at hr ⊢
  refine .ite (fun _ => .fail) fun _ => .bind (.prevent (nd.see c!"mixed")) fun _ => .bind (.annotation x _) fun docs => ?_
  simp only
  rw [removeKid_re, removeKid_re]
  rcases hk : removeKid c!"simpleContent" r.2 with ⟨_ | c, rest⟩
  · rcases hk' : removeKid c!"complexContent" r.2 with ⟨_ | c, rest⟩
    · refine .bindPost (ih.particle r.2 hr p) (fun _ _ _ => particle_rest x) fun q hq => ?_
      obtain ⟨content, rest⟩ := q
      simp only
      rw [removeKids_re]
      exact .bind (attributes_re x p _ (good_all fun k hk => hr k (hq k hk))) fun as => .bind .noChildren fun _ => .pure rfl
    · exact .bind .noChildren fun _ => .bind (ih.complexContent c (good_kid hr hk') p) fun d => .pure rfl
  · exact .bind .noChildren fun _ => .bind (simpleContent_re x (good_kid hr hk) p) fun d => .pure rfl

theorem particle_re (ks : List Nd) (hg : ∀ k ∈ ks, Good E k) (p : Name) :
    Ren E (fun q => (q.1, q.2.map (reNd E.R))) (parseParticle x (k + 1) ks p) (parseParticle x (k + 1) (ks.map (reNd E.R)) p) := by
  unfold parseParticle
  rw [removeKid_re, removeKid_re, removeKid_re]
  have seq : ∀ (c : Nd) (rest : List Nd), Good E c → Ren E (fun q : Option ElementContent × List Nd => (q.1, q.2.map (reNd E.R)))
      (do
        let isUnordered := decide (c.name = c!"all")
        let minOccurs ← P.lift (parseMinOccurs (c.attr c!"minOccurs"))
        let maxOccurs ← P.lift (parseMaxOccurs (c.attr c!"maxOccurs"))
        let child := (c.see c!"minOccurs").see c!"maxOccurs"
        let leaves ← parseSequence x k child p
        let leaves := if isUnordered then leaves.map (fun l => { l with isUnordered := true }) else leaves
        if maxOccurs.isVec = true ∨ minOccurs ≠ 1 then do
          let leaf ← addGroup x p leaves [] (groupRoot leaves) none minOccurs maxOccurs
          pure (some (.leaves [leaf]), rest)
        else pure (some (.leaves leaves), rest))
      (do
        let isUnordered := decide ((reNd E.R c).name = c!"all")
        let minOccurs ← P.lift (parseMinOccurs ((reNd E.R c).attr c!"minOccurs"))
        let maxOccurs ← P.lift (parseMaxOccurs ((reNd E.R c).attr c!"maxOccurs"))
        let child := ((reNd E.R c).see c!"minOccurs").see c!"maxOccurs"
        let leaves ← parseSequence x k child p
        let leaves := if isUnordered then leaves.map (fun l => { l with isUnordered := true }) else leaves
        if maxOccurs.isVec = true ∨ minOccurs ≠ 1 then do
          let leaf ← addGroup x p leaves [] (groupRoot leaves) none minOccurs maxOccurs
          pure (some (.leaves [leaf]), rest.map (reNd E.R))
        else pure (some (.leaves leaves), rest.map (reNd E.R))) := by
    intro c rest hc
    refine .bind (.minOccurs c) fun mn => .bind (.maxOccurs c) fun mx => ?_
    refine .bind (ih.sequence ((c.see c!"minOccurs").see c!"maxOccurs") hc p) fun ls => ?_
    exact .ite (fun _ => .bind (addGroup_re x p _ [] _ none mn mx) fun l => .pure rfl) fun _ => .pure rfl
  rcases hk : removeKid c!"sequence" ks with ⟨_ | c, rest⟩
  · simp only
    rcases hk' : removeKid c!"all" ks with ⟨_ | c, rest⟩
    · simp only
      rcases hk'' : removeKid c!"choice" ks with ⟨_ | c, rest⟩
      · exact .pure rfl
      · refine .bind (ih.choice c (good_kid hg hk'') p) fun vs => .bind (.node _) fun data => .bind (.virtual x _ _) fun rn => .bind (.root rn _) fun _ => .bind (.discover _ _) fun _ => .pure rfl
    · exact seq c rest (good_kid hg hk')
  · exact seq c rest (good_kid hg hk)

theorem extension_re (o : Option Nd) (ho : ∀ c, o = some c → Good E c) (b p : Name) :
    Ren E (fun l => l) (parseExtension x (k + 1) o b p) (parseExtension x (k + 1) (o.map (reNd E.R)) b p) := by
  cases o with
  | none => unfold parseExtension; exact .pure rfl
  | some c =>
    unfold parseExtension
    refine .bind (.minOccurs c) fun mn => .bind (ih.sequence (c.see c!"minOccurs") (ho c rfl) p) fun ls => ?_
    exact .bind (.node _) fun ln => .bind (.virtual x _ _) fun rn => .bind (.root rn _) fun _ => .bind (.discover _ _) fun _ => .pure rfl

theorem complexContent_re (nd : Nd) (hg : Good E nd) (p : Name) :
    Ren E (fun d => d) (parseComplexContent x (k + 1) nd p) (parseComplexContent x (k + 1) (reNd E.R nd) p) := by
  unfold parseComplexContent
  rw [xsdKids_re]
  refine .bind (.prevent nd) fun _ => .tryKid (good_xsdKids hg) fun ext rest hext => ?_
  refine .bind .noChildren fun _ => .typeOf hext (by decide) fun base hq hb => .bind (typeName_re hq hb) fun content => ?_
  cases content with
  | literal t => exact .fail
  | fixed f => exact .fail
  | named n =>
    refine .bind (.discover n p) fun _ => ?_
    simp only
    rw [xsdKids_re, removeKid_re]
    refine .bind (ih.extension _ (fun c hc => good_xsdKids hext c ((removeKid_sub _ _).1 c hc)) n p) fun ls => ?_
    have hk : (if ((removeKid c!"sequence" ext.xsdKids).1.map (reNd E.R)).isSome = true then (removeKid c!"sequence" ext.xsdKids).2.map (reNd E.R) else ext.xsdKids.map (reNd E.R)) =
        (if (removeKid c!"sequence" ext.xsdKids).1.isSome = true then (removeKid c!"sequence" ext.xsdKids).2 else ext.xsdKids).map (reNd E.R) := by
      rw [Option.isSome_map]
      split <;> rfl
    simp only
    rw [hk, removeKids_re]
    refine .bind (attributes_re x p _ (good_all ?_)) fun as => .bind .noChildren fun _ => .ite (fun _ => .pure rfl) fun _ => .bind (.node _) fun b => .pure rfl
    intro k hk
    split at hk
    · exact good_rest (good_xsdKids hext) k hk
    · exact good_xsdKids hext k hk

theorem sequence_re (nd : Nd) (hg : Good E nd) (p : Name) : Ren E (fun l => l) (parseSequence x (k + 1) nd p) (parseSequence x (k + 1) (reNd E.R nd) p) := by
  unfold parseSequence
  rw [xsdKids_re]
  refine .bind (.prevent nd) fun _ => leaves_re (fun c hc => ?_) _ (good_xsdKids hg)
  refine .ite (fun _ => .bind (ih.child c hc p) fun l => .pure rfl) fun _ => .ite (fun _ => ?_) fun _ => .ite (fun _ => ?_) fun _ => .ite (fun _ => .pure rfl) fun _ => .fail
  · refine .bind (.minOccurs c) fun mn => .bind (.maxOccurs c) fun mx => ?_
    exact .bind (ih.choice ((c.see c!"minOccurs").see c!"maxOccurs") hc p) fun vs => .bind (addGroup_re x p vs [] _ none mn mx) fun l => .pure rfl
  · rw [child_re]
    refine .bind (.annotation x _) fun docs => .bind (.minOccurs c) fun mn => ?_
    exact .bind (ih.sequence (c.see c!"minOccurs") hc p) fun ls => .bind (addGroup_re x p ls [] _ docs mn _) fun l => .pure rfl

theorem choice_re (nd : Nd) (hg : Good E nd) (p : Name) : Ren E (fun l => l) (parseChoice x (k + 1) nd p) (parseChoice x (k + 1) (reNd E.R nd) p) := by
  unfold parseChoice
  rw [xsdKids_re]
  refine .bind (.prevent nd) fun _ => leaves_re (fun c hc => ?_) _ (good_xsdKids hg)
  refine .ite (fun _ => .bind (ih.child c hc p) fun l => .pure rfl) fun _ => .ite (fun _ => ?_) fun _ => .ite (fun _ => .pure rfl) fun _ => .fail
  rw [child_re]
  refine .bind (.annotation x _) fun docs => .bind (.minOccurs c) fun mn => .bind (.maxOccurs c) fun mx => ?_
  exact .bind (ih.sequence ((c.see c!"minOccurs").see c!"maxOccurs") hc p) fun ls => .bind (.node _) fun v => .bind (addGroup_re x p ls [v] _ docs mn mx) fun l => .pure rfl

theorem elementChild_re (nd : Nd) (hg : Good E nd) (p : Name) : Ren E (fun l => l) (parseElementChild x (k + 1) nd p) (parseElementChild x (k + 1) (reNd E.R nd) p) := by
  unfold parseElementChild
  refine .bind (.minOccurs nd) fun mn => .bind (.maxOccurs nd) fun mx => ?_
  have he : (((reNd E.R nd).see c!"minOccurs").see c!"maxOccurs").see c!"ref" = reNd E.R (((nd.see c!"minOccurs").see c!"maxOccurs").see c!"ref") := rfl
  simp only [he]
  have hg : Good E (((nd.see c!"minOccurs").see c!"maxOccurs").see c!"ref") := hg
  generalize ((nd.see c!"minOccurs").see c!"maxOccurs").see c!"ref" = nd at hg ⊢
  rw [attr_re]
  cases h : nd.attr c!"ref" with
  | some attr =>
    refine .bind (.prevent nd) fun _ => .bind (typeName_re (by rw [attr_loc h]; decide) (good_attr hg h)) fun content => ?_
    cases content with
    | named n => exact .bind (.discover n p) fun _ => .pure rfl
    | literal t => exact .fail
    | fixed f => exact .fail
  | none =>
    refine .valueOf (by decide) fun nameAttr hv => ?_
    rw [hv]
    refine .bind (.node _) fun name => ?_
    have he : ((((reNd E.R nd).see c!"name").see c!"default").see c!"form").see c!"type" = reNd E.R ((((nd.see c!"name").see c!"default").see c!"form").see c!"type") := rfl
    simp only [he]
    have hg : Good E ((((nd.see c!"name").see c!"default").see c!"form").see c!"type") := hg
    generalize (((nd.see c!"name").see c!"default").see c!"form").see c!"type" = nd at hg ⊢
    rw [child_re, child_re, child_re]
    refine .bind (.annotation x _) fun docs => ?_
    rw [attr_re]
    cases h : nd.attr c!"type" with
    | some attr =>
      refine .bind (typeAttr_re nd (by rw [attr_loc h]; decide) (good_attr hg h) p) fun q => ?_
      obtain ⟨content, nd1⟩ := q
      exact .bind (.prevent nd1) fun _ => .pure rfl
    | none =>
      simp only [Option.isNone_map]
      refine .ite (fun _ => .bind (.prevent nd) fun _ => .pure rfl) fun _ => ?_
      refine .bind (.prevent nd) fun _ => .bind (.node _) fun data => .bind (.virtual x _ _) fun vn => ?_
      exact .bind (ih.root nd hg vn) fun root => .bind (.root vn root) fun _ => .bind (.discover _ _) fun _ => .pure rfl

end

theorem preOK (E : Setting) (x : Ext) (k : Nat) : PreOK E x k := by
  induction k with
  | zero => exact preOK_zero x
  | succ k ih =>
    exact ⟨root_re ih, element_re ih, complexType_re ih, particle_re ih, complexContent_re ih, extension_re ih, sequence_re ih, choice_re ih, elementChild_re ih⟩

end Pre
end Xsd
