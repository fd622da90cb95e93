import Verif.Lemmas.Tidy
/-!
# Every parser function on tidied schemas
-/
namespace Xsd
namespace Tidy

variable {O : Order}

/-! ## What is given back -/

theorem typeAttr_good {nd : Nd} (hg : Good nd) {attr : XAttr} {p : Name} {q : LeafContent × Nd} {s s' : PCtx} (h : parseTypeAttr nd attr p s = .ok (q, s')) : Good q.2 := by
  unfold parseTypeAttr at h
  obtain ⟨content, s1, _, h⟩ := P.bind_ok.1 h
  cases content with
  | named n =>
    obtain ⟨_, s2, _, h⟩ := P.bind_ok.1 h
    cases h
    exact hg
  | literal t =>
    simp only at h
    cases hf : nd.attr c!"fixed" with
    | none => rw [hf] at h; cases h; exact hg
    | some f => rw [hf] at h; cases h; exact hg
  | fixed f => cases h; exact hg

theorem attrContent_good {x : Ext} {nd : Nd} (hg : Good nd) {name p : Name} {o : Option Nd} {q : LeafContent × Nd} {s s' : PCtx}
    (h : parseAttrContent x nd name p o s = .ok (q, s')) : Good q.2 := by
  unfold parseAttrContent at h
  cases o with
  | none =>
    obtain ⟨a, s1, _, h⟩ := P.bind_ok.1 h
    exact typeAttr_good (nd := nd.see c!"type") hg h
  | some c =>
    obtain ⟨root, s1, _, h⟩ := P.bind_ok.1 h
    have key : ∀ {s : PCtx}, (do
        let data ← nodeName c!"Data"
        let vname ← deriveVirtualName x [p, name, data] false
        addRoot vname root
        discoverType vname p
        pure (LeafContent.named vname, nd) : P (LeafContent × Nd)) s = .ok (q, s') → Good q.2 := by
      intro s h
      obtain ⟨_, _, _, h⟩ := P.bind_ok.1 h
      obtain ⟨_, _, _, h⟩ := P.bind_ok.1 h
      obtain ⟨_, _, _, h⟩ := P.bind_ok.1 h
      obtain ⟨_, _, _, h⟩ := P.bind_ok.1 h
      cases h
      exact hg
    cases root with
    | leaf d =>
      obtain ⟨ct, rs, docs⟩ := d
      cases ct with
      | literal t => cases h; exact hg
      | named n => exact key h
      | fixed n => exact key h
    | enum ns => exact key h
    | element d => exact key h
    | choice vs v d => exact key h

/-! ## Simple types and attributes -/

theorem facet_ti (x : Ext) {c : Nd} (hg : Good c) : Near (fun f => f) (parseFacet x c) (parseFacet x (tidyNd O c)) := by
  unfold parseFacet
  have hn : c!"value" ∈ known := by decide
  refine .ite (fun _ => .attr hg.1 hn fun a => .ok' rfl) fun _ => ?_
  refine .ite (fun _ => .attr hg.1 hn fun a => .bind (usize_ti a) fun n => .ok _) fun _ => ?_
  refine .ite (fun _ => .attr hg.1 hn fun a => .bind (usize_ti a) fun n => .ok _) fun _ => ?_
  refine .ite (fun _ => .attr hg.1 hn fun a => .bind (usize_ti a) fun n => .ok _) fun _ => ?_
  refine .ite (fun _ => .attr hg.1 hn fun a => .ok' rfl) fun _ => ?_
  refine .ite (fun _ => .attr hg.1 hn fun a => .bind (dec_ti x a) fun n => .ok _) fun _ => ?_
  refine .ite (fun _ => .attr hg.1 hn fun a => .bind (dec_ti x a) fun n => .ok _) fun _ => ?_
  refine .ite (fun _ => .attr hg.1 hn fun a => .bind (usize_ti a) fun n => .ok _) fun _ => ?_
  exact .ite (fun _ => .attr hg.1 hn fun a => .bind (usize_ti a) fun n => .ok _) fun _ => .err _ _

theorem facets_ti (x : Ext) : ∀ ks : List Nd, (∀ k ∈ ks, Good k) → Near (fun r => r) (parseFacets x ks) (parseFacets x (ks.map (tidyNd O)))
  | [], _ => .ok _
  | c :: cs, h => by
    rw [List.map_cons, parseFacets, parseFacets]
    exact .bind (facet_ti x (h c List.mem_cons_self)) fun f => .bind (facets_ti x cs fun k hk => h k (List.mem_cons_of_mem _ hk)) fun r => .ok _

theorem simpleType_ti (x : Ext) {nd : Nd} (hg : Good nd) : Ren (fun r => r) (parseSimpleType x nd) (parseSimpleType x (tidyNd O nd)) := by
  unfold parseSimpleType
  rw [xsdKids_ti, removeKid_ti]
  refine .bind (.prevent hg) fun _ => .bind (.annotation x (good_opt (good_xsdKids hg))) fun docs => .tryKid (good_rest (good_xsdKids hg)) fun rs rest hrs => ?_
  refine .attrOf hrs (by decide) fun attr => .bind (typeName_ti attr) fun content => ?_
  cases content with
  | literal t =>
    refine .bind .noChildren fun _ => .bind (f := fun a => a) (.lift ?_) fun q => .pure rfl
    rw [xsdKids_ti]
    exact facets_ti x _ (good_xsdKids hrs)
  | named n => exact .fail
  | fixed n => exact .fail

theorem typeAttr_ti {nd : Nd} (hg : Good nd) (attr : XAttr) (p : Name) :
    Ren (fun q => (q.1, tidyNd O q.2)) (parseTypeAttr nd attr p) (parseTypeAttr (tidyNd O nd) (unplaced attr) p) := by
  unfold parseTypeAttr
  refine .bind (typeName_ti attr) fun content => ?_
  cases content with
  | named n => exact .bind .same fun _ => .pure rfl
  | literal t =>
    simp only
    rw [attr_ti hg.1 (by decide)]
    cases nd.attr c!"fixed" with
    | some f => exact .pure rfl
    | none => exact .pure rfl
  | fixed f => exact .pure rfl

theorem attrContent_ti (x : Ext) {nd : Nd} (hg : Good nd) (name p : Name) (o : Option Nd) (ho : ∀ c, o = some c → Good c) :
    Ren (fun q => (q.1, tidyNd O q.2)) (parseAttrContent x nd name p o) (parseAttrContent x (tidyNd O nd) name p (o.map (tidyNd O))) := by
  unfold parseAttrContent
  cases o with
  | none => exact .attrOf hg (by decide) fun a => typeAttr_ti (nd := nd.see c!"type") hg a p
  | some c =>
    refine .bind (simpleType_ti x (ho c rfl)) fun root => ?_
    have key : Ren (fun q : LeafContent × Nd => (q.1, tidyNd O q.2))
        (do
          let data ← nodeName c!"Data"
          let vname ← deriveVirtualName x [p, name, data] false
          addRoot vname root
          discoverType vname p
          pure (.named vname, nd))
        (do
          let data ← nodeName c!"Data"
          let vname ← deriveVirtualName x [p, name, data] false
          addRoot vname root
          discoverType vname p
          pure (.named vname, tidyNd O nd)) :=
      .bind .same fun data => .bind .same fun vname => .bind .same fun _ => .bind .same fun _ => .pure rfl
    cases root with
    | leaf d =>
      obtain ⟨ct, rs, docs⟩ := d
      cases ct with
      | literal t => exact .pure rfl
      | named n => exact key
      | fixed n => exact key
    | enum ns => exact key
    | element d => exact key
    | choice vs v d => exact key

theorem attribute_ti (x : Ext) {nd : Nd} (hg : Good nd) (p : Name) : Ren (fun a => a) (parseAttribute x nd p) (parseAttribute x (tidyNd O nd) p) := by
  unfold parseAttribute
  refine .attrOf hg (by decide) fun nameAttr => ?_
  have hk : ((tidyNd O nd).see c!"name").xsdKids = nd.xsdKids.map (tidyNd O) := xsdKids_ti O (nd.see c!"name")
  have hk' : (nd.see c!"name").xsdKids = nd.xsdKids := rfl
  simp only [hk, hk', removeKid_ti]
  refine .bind (.annotation x (good_opt (good_xsdKids hg))) fun docs => .bindPost (attrContent_ti x (nd := nd.see c!"name") hg _ p _ (good_opt (good_rest (good_xsdKids hg)))) (fun _ _ _ h => attrContent_good (nd := nd.see c!"name") hg h) fun q hq => ?_
  obtain ⟨content, nd1⟩ := q
  refine .bind .noChildren fun _ => ?_
  simp only [attrVal_ti hq.1 (n := c!"default") (by decide), attrVal_ti hq.1 (n := c!"use") (by decide)]
  refine .ite (fun _ => .pure rfl) fun _ => .ite (fun _ => .ite (fun _ => .fail) fun _ => .bind (.prevent (nd := (nd1.see c!"default").see c!"use") hq) fun _ => .pure rfl) fun _ => .fail

theorem attributes_ti (x : Ext) (p : Name) : ∀ ks : List Nd, (∀ k ∈ ks, Good k) → Ren (fun a => a) (parseAttributes x p ks) (parseAttributes x p (ks.map (tidyNd O)))
  | [], _ => .pure rfl
  | c :: cs, h => by
    rw [List.map_cons, parseAttributes, parseAttributes]
    exact .bind (attribute_ti x (h c List.mem_cons_self) p) fun a => .bind (attributes_ti x p cs fun k hk => h k (List.mem_cons_of_mem _ hk)) fun as => .pure rfl

theorem simpleContent_ti (x : Ext) {nd : Nd} (hg : Good nd) (p : Name) : Ren (fun d => d) (parseSimpleContent x nd p) (parseSimpleContent x (tidyNd O nd) p) := by
  unfold parseSimpleContent
  rw [xsdKids_ti]
  refine .bind (.prevent hg) fun _ => .tryKid (good_xsdKids hg) fun ext rest hext => ?_
  refine .bind .noChildren fun _ => .attrOf hext (by decide) fun base => .bind (typeName_ti base) fun content => ?_
  simp only
  rw [xsdKids_ti, removeKids_ti]
  refine .bind (f := fun a => a) ?_ fun leafName => .bind (attributes_ti x p _ (good_all (good_xsdKids hext))) fun as => .bind .noChildren fun _ => .pure rfl
  cases content with
  | named n => exact .bind .same fun _ => .pure rfl
  | literal t => exact .pure rfl
  | fixed f => exact .pure rfl

/-! ## Loops and groups -/

theorem leaves_ti {g g' : Nd → P (Option Leaf)} (h : ∀ c, Good c → Ren (fun l => l) (g c) (g' (tidyNd O c))) :
    ∀ ks : List Nd, (∀ k ∈ ks, Good k) → Ren (fun l => l) (parseLeaves g ks) (parseLeaves g' (ks.map (tidyNd O)))
  | [], _ => .pure rfl
  | c :: cs, hg => by
    rw [List.map_cons, parseLeaves, parseLeaves]
    exact .bind (h c (hg c List.mem_cons_self)) fun a => .bind (leaves_ti h cs fun k hk => hg k (List.mem_cons_of_mem _ hk)) fun as => .pure rfl

theorem addGroup_ti (x : Ext) (p : Name) (ls : List Leaf) (sfx : List Name) (root : Root) (docs : Option Str) (mn : Nat) (mx : MaxOccurs) :
    Ren (fun l => l) (addGroup x p ls sfx root docs mn mx) (addGroup x p ls sfx root docs mn mx) := by
  unfold addGroup
  exact .bind .same fun leafName => .bind .same fun rootName => .bind .same fun _ => .bind .same fun _ => .pure rfl

theorem particle_rest (x : Ext) {k : Nat} {ks : List Nd} {p : Name} {q : Option ElementContent × List Nd} {s s' : PCtx}
    (h : parseParticle x k ks p s = .ok (q, s')) : ∀ c ∈ q.2, c ∈ ks := by
  cases k with
  | zero => unfold parseParticle at h; cases h
  | succ k =>
    obtain ⟨content, rest⟩ := q
    have sub : ∀ {c rest}, sequenceOrAll ks = (some c, rest) → ∀ c ∈ rest, c ∈ ks := by
      intro c rest hk
      unfold sequenceOrAll at hk
      split at hk
      · next hk' =>
        cases hk
        have := (removeKid_sub c!"sequence" ks).2
        rw [hk'] at this
        exact this
      · have := (removeKid_sub c!"all" ks).2
        rw [hk] at this
        exact this
    cases parseParticle_run x h with
    | group _ _ _ _ _ _ _ _ hk => exact sub hk
    | sequence _ _ _ _ _ _ hk => exact sub hk
    | choice _ _ _ _ _ _ hk =>
      have := (removeKid_sub c!"choice" ks).2
      rw [hk] at this
      exact this
    | none => exact fun c hc => hc

/-! ## The mutually recursive functions -/

/-- What is to be shown of all functions of the parser, for two amounts of fuel. -/
structure TidyOK (O : Order) (x : Ext) (k k' : Nat) : Prop where
  root : ∀ nd, Good nd → ∀ p, Ren (fun r => r) (parseRoot x k nd p) (parseRoot x k' (tidyNd O nd) p)
  element : ∀ nd, Good nd → ∀ p, Ren (fun r => r) (parseElementRoot x k nd p) (parseElementRoot x k' (tidyNd O nd) p)
  complexType : ∀ nd, Good nd → ∀ p, Ren (fun r => r) (parseComplexType x k nd p) (parseComplexType x k' (tidyNd O nd) p)
  particle : ∀ ks, (∀ k ∈ ks, Good k) → ∀ p, Ren (fun q => (q.1, q.2.map (tidyNd O))) (parseParticle x k ks p) (parseParticle x k' (ks.map (tidyNd O)) p)
  complexContent : ∀ nd, Good nd → ∀ p, Ren (fun d => d) (parseComplexContent x k nd p) (parseComplexContent x k' (tidyNd O nd) p)
  extension : ∀ o, (∀ c, o = some c → Good c) → ∀ b p, Ren (fun l => l) (parseExtension x k o b p) (parseExtension x k' (o.map (tidyNd O)) b p)
  sequence : ∀ nd, Good nd → ∀ p, Ren (fun l => l) (parseSequence x k nd p) (parseSequence x k' (tidyNd O nd) p)
  choice : ∀ nd, Good nd → ∀ p, Ren (fun l => l) (parseChoice x k nd p) (parseChoice x k' (tidyNd O nd) p)
  child : ∀ nd, Good nd → ∀ p, Ren (fun l => l) (parseElementChild x k nd p) (parseElementChild x k' (tidyNd O nd) p)

theorem tidyOK_left (x : Ext) (k' : Nat) : TidyOK O x 0 k' := by
  refine ⟨?_, ?_, ?_, ?_, ?_, ?_, ?_, ?_, ?_⟩
  · intros; rw [parseRoot]; exact .left
  · intros; rw [parseElementRoot]; exact .left
  · intros; rw [parseComplexType]; exact .left
  · intros; rw [parseParticle]; exact .left
  · intros; rw [parseComplexContent]; exact .left
  · intros; rw [parseExtension]; exact .left
  · intros; rw [parseSequence]; exact .left
  · intros; rw [parseChoice]; exact .left
  · intros; rw [parseElementChild]; exact .left

theorem tidyOK_right (x : Ext) (k : Nat) : TidyOK O x k 0 := by
  refine ⟨?_, ?_, ?_, ?_, ?_, ?_, ?_, ?_, ?_⟩
  · intros; rw [parseRoot.eq_1 (x := x)]; exact .right
  · intros; rw [parseElementRoot.eq_1 (x := x)]; exact .right
  · intros; rw [parseComplexType.eq_1 (x := x)]; exact .right
  · intros; rw [parseParticle.eq_1 (x := x)]; exact .right
  · intros; rw [parseComplexContent.eq_1 (x := x)]; exact .right
  · intros; rw [parseExtension.eq_1 (x := x)]; exact .right
  · intros; rw [parseSequence.eq_1 (x := x)]; exact .right
  · intros; rw [parseChoice.eq_1 (x := x)]; exact .right
  · intros; rw [parseElementChild.eq_1 (x := x)]; exact .right

section
variable {x : Ext} {k k' : Nat} (ih : TidyOK O x k k')
include ih

theorem root_ti (nd : Nd) (hg : Good nd) (p : Name) : Ren (fun r => r) (parseRoot x (k + 1) nd p) (parseRoot x (k' + 1) (tidyNd O nd) p) := by
  unfold parseRoot
  exact .ite (fun _ => ih.element nd hg p) fun _ => .ite (fun _ => ih.complexType nd hg p) fun _ => .ite (fun _ => simpleType_ti x hg) fun _ => .fail

theorem element_ti (nd : Nd) (hg : Good nd) (p : Name) : Ren (fun r => r) (parseElementRoot x (k + 1) nd p) (parseElementRoot x (k' + 1) (tidyNd O nd) p) := by
  unfold parseElementRoot
  simp only
  rw [xsdKids_ti, removeKid_ti]
  have hr := good_rest (n := c!"annotation") (good_xsdKids hg)
  have ho := good_opt (n := c!"annotation") (good_xsdKids hg)
  generalize removeKid c!"annotation" nd.xsdKids = r at hr ho ⊢
  refine .bind (.annotation x ho) fun docs => ?_
  rw [attr_ti hg.1 (by decide)]
  cases h : nd.attr c!"type" with
  | some attr =>
    refine .bindPost (typeAttr_ti (nd := nd.see c!"type") hg attr p) (fun _ _ _ h => typeAttr_good (nd := nd.see c!"type") hg h) fun q hq => ?_
    obtain ⟨content, nd1⟩ := q
    exact .bind (.prevent hq) fun _ => .bind .noChildren fun _ => .pure rfl
  | none =>
    refine .bind (.prevent (nd := nd.see c!"type") hg) fun _ => ?_
    simp only
    rw [removeKid_ti, removeKid_ti]
    rcases hk : removeKid c!"complexType" r.2 with ⟨_ | c, rest⟩
    · rcases hk' : removeKid c!"simpleType" r.2 with ⟨_ | c, rest⟩
      · exact .fail
      · exact .bind (simpleType_ti x (good_kid hr hk')) fun root => .bind .noChildren fun _ => .pure rfl
    · exact .bind (ih.complexType c (good_kid hr hk) p) fun root => .bind .noChildren fun _ => .pure rfl

theorem complexType_ti (nd : Nd) (hg : Good nd) (p : Name) : Ren (fun r => r) (parseComplexType x (k + 1) nd p) (parseComplexType x (k' + 1) (tidyNd O nd) p) := by
  unfold parseComplexType
  simp only [attrVal_ti hg.1 (n := c!"mixed") (by decide)]
  rw [xsdKids_ti, removeKid_ti]
  have hr := good_rest (n := c!"annotation") (good_xsdKids hg)
  have ho := good_opt (n := c!"annotation") (good_xsdKids hg)
  generalize removeKid c!"annotation" nd.xsdKids = r at hr ho ⊢
  refine .ite (fun _ => .fail) fun _ => .bind (.prevent (nd := nd.see c!"mixed") hg) fun _ => .bind (.annotation x ho) fun docs => ?_
  simp only
  rw [removeKid_ti, removeKid_ti]
  rcases hk : removeKid c!"simpleContent" r.2 with ⟨_ | c, rest⟩
  · rcases hk' : removeKid c!"complexContent" r.2 with ⟨_ | c, rest⟩
    · refine .bindPost (ih.particle r.2 hr p) (fun _ _ _ => particle_rest x) fun q hq => ?_
      obtain ⟨content, rest⟩ := q
      simp only
      rw [removeKids_ti]
      exact .bind (attributes_ti x p _ (good_all fun k hk => hr k (hq k hk))) fun as => .bind .noChildren fun _ => .pure rfl
    · exact .bind .noChildren fun _ => .bind (ih.complexContent c (good_kid hr hk') p) fun d => .pure rfl
  · exact .bind .noChildren fun _ => .bind (simpleContent_ti x (good_kid hr hk) p) fun d => .pure rfl

theorem particle_ti (ks : List Nd) (hg : ∀ k ∈ ks, Good k) (p : Name) :
    Ren (fun q => (q.1, q.2.map (tidyNd O))) (parseParticle x (k + 1) ks p) (parseParticle x (k' + 1) (ks.map (tidyNd O)) p) := by
  unfold parseParticle
  rw [removeKid_ti, removeKid_ti, removeKid_ti]
  have seq : ∀ (c : Nd) (rest : List Nd), Good c → Ren (fun q : Option ElementContent × List Nd => (q.1, q.2.map (tidyNd O)))
      (do
        let isUnordered := decide (c.name = c!"all")
        let minOccurs ← P.lift (parseMinOccurs (c.attr c!"minOccurs"))
        let maxOccurs ← P.lift (parseMaxOccurs (c.attr c!"maxOccurs"))
        let child := (c.see c!"minOccurs").see c!"maxOccurs"
        let leaves ← parseSequence x k child p
        let leaves := if isUnordered then leaves.map (fun l => { l with isUnordered := true }) else leaves
        if maxOccurs.isVec = true ∨ minOccurs ≠ 1 then do
          let leaf ← addGroup x p leaves [] (groupRoot leaves) none minOccurs maxOccurs
          pure (some (.leaves [leaf]), rest)
        else pure (some (.leaves leaves), rest))
      (do
        let isUnordered := decide ((tidyNd O c).name = c!"all")
        let minOccurs ← P.lift (parseMinOccurs ((tidyNd O c).attr c!"minOccurs"))
        let maxOccurs ← P.lift (parseMaxOccurs ((tidyNd O c).attr c!"maxOccurs"))
        let child := ((tidyNd O c).see c!"minOccurs").see c!"maxOccurs"
        let leaves ← parseSequence x k' child p
        let leaves := if isUnordered then leaves.map (fun l => { l with isUnordered := true }) else leaves
        if maxOccurs.isVec = true ∨ minOccurs ≠ 1 then do
          let leaf ← addGroup x p leaves [] (groupRoot leaves) none minOccurs maxOccurs
          pure (some (.leaves [leaf]), rest.map (tidyNd O))
        else pure (some (.leaves leaves), rest.map (tidyNd O))) := by
    intro c rest hc
    refine .bind (.minOccurs hc) fun mn => .bind (.maxOccurs hc) fun mx => ?_
    refine .bind (ih.sequence ((c.see c!"minOccurs").see c!"maxOccurs") hc p) fun ls => ?_
    exact .ite (fun _ => .bind (addGroup_ti x p _ [] _ none mn mx) fun l => .pure rfl) fun _ => .pure rfl
  rcases hk : removeKid c!"sequence" ks with ⟨_ | c, rest⟩
  · simp only
    rcases hk' : removeKid c!"all" ks with ⟨_ | c, rest⟩
    · simp only
      rcases hk'' : removeKid c!"choice" ks with ⟨_ | c, rest⟩
      · exact .pure rfl
      · refine .bind (ih.choice c (good_kid hg hk'') p) fun vs => .bind .same fun data => .bind .same fun rn => .bind .same fun _ => .bind .same fun _ => .pure rfl
    · exact seq c rest (good_kid hg hk')
  · exact seq c rest (good_kid hg hk)

theorem extension_ti (o : Option Nd) (ho : ∀ c, o = some c → Good c) (b p : Name) :
    Ren (fun l => l) (parseExtension x (k + 1) o b p) (parseExtension x (k' + 1) (o.map (tidyNd O)) b p) := by
  cases o with
  | none => unfold parseExtension; exact .pure rfl
  | some c =>
    unfold parseExtension
    refine .bind (.minOccurs (ho c rfl)) fun mn => .bind (ih.sequence (c.see c!"minOccurs") (ho c rfl) p) fun ls => ?_
    exact .bind .same fun ln => .bind .same fun rn => .bind .same fun _ => .bind .same fun _ => .pure rfl

theorem complexContent_ti (nd : Nd) (hg : Good nd) (p : Name) :
    Ren (fun d => d) (parseComplexContent x (k + 1) nd p) (parseComplexContent x (k' + 1) (tidyNd O nd) p) := by
  unfold parseComplexContent
  rw [xsdKids_ti]
  refine .bind (.prevent hg) fun _ => .tryKid (good_xsdKids hg) fun ext rest hext => ?_
  refine .bind .noChildren fun _ => .attrOf hext (by decide) fun base => .bind (typeName_ti base) fun content => ?_
  cases content with
  | literal t => exact .fail
  | fixed f => exact .fail
  | named n =>
    refine .bind .same fun _ => ?_
    simp only
    rw [xsdKids_ti, removeKid_ti]
    refine .bind (ih.extension _ (good_opt (good_xsdKids hext)) n p) fun ls => ?_
    have hk : (if ((removeKid c!"sequence" ext.xsdKids).1.map (tidyNd O)).isSome = true then (removeKid c!"sequence" ext.xsdKids).2.map (tidyNd O) else ext.xsdKids.map (tidyNd O)) =
        (if (removeKid c!"sequence" ext.xsdKids).1.isSome = true then (removeKid c!"sequence" ext.xsdKids).2 else ext.xsdKids).map (tidyNd O) := by
      rw [Option.isSome_map]
      split <;> rfl
    simp only
    rw [hk, removeKids_ti]
    refine .bind (attributes_ti x p _ (good_all ?_)) fun as => .bind .noChildren fun _ => .ite (fun _ => .pure rfl) fun _ => .bind .same fun b => .pure rfl
    intro k hk
    split at hk
    · exact good_rest (good_xsdKids hext) k hk
    · exact good_xsdKids hext k hk

theorem sequence_ti (nd : Nd) (hg : Good nd) (p : Name) : Ren (fun l => l) (parseSequence x (k + 1) nd p) (parseSequence x (k' + 1) (tidyNd O nd) p) := by
  unfold parseSequence
  rw [xsdKids_ti]
  refine .bind (.prevent hg) fun _ => leaves_ti (fun c hc => ?_) _ (good_xsdKids hg)
  refine .ite (fun _ => .bind (ih.child c hc p) fun l => .pure rfl) fun _ => .ite (fun _ => ?_) fun _ => .ite (fun _ => ?_) fun _ => .ite (fun _ => .pure rfl) fun _ => .fail
  · refine .bind (.minOccurs hc) fun mn => .bind (.maxOccurs hc) fun mx => ?_
    exact .bind (ih.choice ((c.see c!"minOccurs").see c!"maxOccurs") hc p) fun vs => .bind (addGroup_ti x p vs [] _ none mn mx) fun l => .pure rfl
  · rw [child_ti]
    refine .bind (.annotation x (good_child hc)) fun docs => .bind (.minOccurs hc) fun mn => ?_
    exact .bind (ih.sequence (c.see c!"minOccurs") hc p) fun ls => .bind (addGroup_ti x p ls [] _ docs mn _) fun l => .pure rfl

theorem choice_ti (nd : Nd) (hg : Good nd) (p : Name) : Ren (fun l => l) (parseChoice x (k + 1) nd p) (parseChoice x (k' + 1) (tidyNd O nd) p) := by
  unfold parseChoice
  rw [xsdKids_ti]
  refine .bind (.prevent hg) fun _ => leaves_ti (fun c hc => ?_) _ (good_xsdKids hg)
  refine .ite (fun _ => .bind (ih.child c hc p) fun l => .pure rfl) fun _ => .ite (fun _ => ?_) fun _ => .ite (fun _ => .pure rfl) fun _ => .fail
  rw [child_ti]
  refine .bind (.annotation x (good_child hc)) fun docs => .bind (.minOccurs hc) fun mn => .bind (.maxOccurs hc) fun mx => ?_
  exact .bind (ih.sequence ((c.see c!"minOccurs").see c!"maxOccurs") hc p) fun ls => .bind .same fun v => .bind (addGroup_ti x p ls [v] _ docs mn mx) fun l => .pure rfl

theorem elementChild_ti (nd : Nd) (hg : Good nd) (p : Name) : Ren (fun l => l) (parseElementChild x (k + 1) nd p) (parseElementChild x (k' + 1) (tidyNd O nd) p) := by
  unfold parseElementChild
  refine .bind (.minOccurs hg) fun mn => .bind (.maxOccurs hg) fun mx => ?_
  have he : (((tidyNd O nd).see c!"minOccurs").see c!"maxOccurs").see c!"ref" = tidyNd O (((nd.see c!"minOccurs").see c!"maxOccurs").see c!"ref") := rfl
  simp only [he]
  have hg : Good (((nd.see c!"minOccurs").see c!"maxOccurs").see c!"ref") := hg
  generalize ((nd.see c!"minOccurs").see c!"maxOccurs").see c!"ref" = nd at hg ⊢
  rw [attr_ti hg.1 (by decide)]
  cases h : nd.attr c!"ref" with
  | some attr =>
    refine .bind (.prevent hg) fun _ => .bind (typeName_ti attr) fun content => ?_
    cases content with
    | named n => exact .bind .same fun _ => .pure rfl
    | literal t => exact .fail
    | fixed f => exact .fail
  | none =>
    refine .attrOf hg (by decide) fun nameAttr => ?_
    refine .bind .same fun name => ?_
    have he : ((((tidyNd O nd).see c!"name").see c!"default").see c!"form").see c!"type" = tidyNd O ((((nd.see c!"name").see c!"default").see c!"form").see c!"type") := rfl
    simp only [he]
    have hg : Good ((((nd.see c!"name").see c!"default").see c!"form").see c!"type") := hg
    generalize (((nd.see c!"name").see c!"default").see c!"form").see c!"type" = nd at hg ⊢
    rw [child_ti, child_ti, child_ti]
    refine .bind (.annotation x (good_child hg)) fun docs => ?_
    rw [attr_ti hg.1 (by decide)]
    cases h : nd.attr c!"type" with
    | some attr =>
      refine .bindPost (typeAttr_ti hg attr p) (fun _ _ _ h => typeAttr_good hg h) fun q hq => ?_
      obtain ⟨content, nd1⟩ := q
      exact .bind (.prevent hq) fun _ => .pure rfl
    | none =>
      simp only [Option.isNone_map]
      refine .ite (fun _ => .bind (.prevent hg) fun _ => .pure rfl) fun _ => ?_
      refine .bind (.prevent hg) fun _ => .bind .same fun data => .bind .same fun vn => ?_
      exact .bind (ih.root nd hg vn) fun root => .bind .same fun _ => .bind .same fun _ => .pure rfl

end

theorem tidyOK (O : Order) (x : Ext) (k k' : Nat) : TidyOK O x k k' := by
  induction k generalizing k' with
  | zero => exact tidyOK_left x k'
  | succ k ih =>
    cases k' with
    | zero => exact tidyOK_right x (k + 1)
    | succ k' =>
      have ih := ih k'
      exact ⟨root_ti ih, element_ti ih, complexType_ti ih, particle_ti ih, complexContent_ti ih, extension_ti ih, sequence_ti ih, choice_ti ih, elementChild_ti ih⟩

end Tidy
end Xsd
