import Verif.Lemmas.Parse
/-!
# The parser of one definition has enough fuel
-/
namespace Xsd

/-- The computation never runs out of fuel. -/
def P.Tot {α : Type} (m : P α) : Prop := ∀ s, m s ≠ .diverge

/-- The computation never runs out of fuel. -/
def Res.Tot {ε α : Type} (r : Res ε α) : Prop := r ≠ .diverge

namespace P.Tot
variable {α β : Type}

theorem bind {m : P α} {f : α → P β} (hm : m.Tot) (hf : ∀ s a s', m s = .ok (a, s') → (f a).Tot) : (m >>= f).Tot := by
  intro s h
  change P.bnd m f s = _ at h
  unfold P.bnd at h
  split at h
  · next hh => exact hf _ _ _ hh _ h
  · cases h
  · cases h
  · next hh => exact hm _ hh

theorem bind' {m : P α} {f : α → P β} (hm : m.Tot) (hf : ∀ a, (f a).Tot) : (m >>= f).Tot := bind hm fun _ a _ _ => hf a

theorem pure (a : α) : (Pure.pure a : P α).Tot := by intro s h; cases h

theorem fail (e : XErr) : (P.fail e : P α).Tot := by intro s h; cases h

theorem lift {r : Res XErr α} (h : r.Tot) : (P.lift r).Tot := by
  intro s hs
  unfold P.lift at hs
  split at hs
  · cases hs
  · cases hs
  · cases hs
  · exact h rfl

theorem modify (f : PCtx → PCtx) : (P.modify f).Tot := by intro s h; cases h

theorem nodeName (n : Str) : (nodeName n).Tot := by intro s h; cases h

end P.Tot

namespace Res.Tot
variable {ε α β : Type}

theorem bind {m : Res ε α} {f : α → Res ε β} (hm : m.Tot) (hf : ∀ a, m = .ok a → (f a).Tot) : (m >>= f).Tot := by
  intro h
  cases m with
  | ok a => exact hf a rfl h
  | err e => cases h
  | panic => cases h
  | diverge => exact hm rfl

theorem pure (a : α) : (Pure.pure a : Res ε α).Tot := by intro h; cases h

end Res.Tot

theorem preventUnvisitedAttributes_tot (nd : Nd) : nd.preventUnvisitedAttributes.Tot := by
  intro h; unfold Nd.preventUnvisitedAttributes at h; split at h <;> cases h

theorem preventUnvisitedChildren_tot (nd : Nd) (ks : List Nd) : (preventUnvisitedChildren nd ks).Tot := by
  intro h; unfold preventUnvisitedChildren at h; split at h <;> cases h

theorem tryAttr_tot (nd : Nd) (n : Str) : (nd.tryAttr n).Tot := by
  intro h; unfold Nd.tryAttr at h; split at h <;> cases h

theorem tryRemoveKid_tot (nd : Nd) (n : Str) (ks : List Nd) : (tryRemoveKid nd n ks).Tot := by
  intro h; unfold tryRemoveKid at h; split at h <;> cases h

theorem tryText_tot (nd : Nd) : nd.tryText.Tot := by
  intro h; unfold Nd.tryText at h; split at h <;> cases h

theorem parseAnnotation_tot (x : Ext) (o : Option Nd) : (parseAnnotation x o).Tot := by
  cases o with
  | none => intro h; cases h
  | some nd =>
    show (parseAnnotation1 x nd).Tot
    unfold parseAnnotation1
    refine .bind ?_ fun _ _ => .bind (preventUnvisitedChildren_tot _ _) fun _ _ => .bind (preventUnvisitedAttributes_tot _) fun _ _ => .pure _
    split
    · exact .bind (tryText_tot _) fun _ _ => .pure _
    · exact .pure _

theorem literalOr_tot (n : Str) (a : XAttr) : (literalOr n a).Tot := by
  intro h; unfold literalOr at h; split at h <;> cases h

theorem getTypeName_tot (a : XAttr) : (getTypeName a).Tot := by
  intro s h
  unfold getTypeName at h
  split at h
  · split at h
    · cases h
    · split at h
      · exact P.Tot.lift (literalOr_tot _ _) _ h
      · cases h
  · split at h
    · exact P.Tot.lift (literalOr_tot _ _) _ h
    · cases h

theorem parseU32_tot (a : XAttr) : (parseU32 a).Tot := by
  intro h; unfold parseU32 at h; split at h <;> cases h

theorem parseUsize_tot (a : XAttr) : (parseUsize a).Tot := by
  intro h; unfold parseUsize at h; split at h <;> cases h

theorem parseDec_tot (x : Ext) (a : XAttr) : (parseDec x a).Tot := by
  intro h; unfold parseDec at h; split at h <;> cases h

theorem parseMinOccurs_tot (o : Option XAttr) : (parseMinOccurs o).Tot := by
  cases o with
  | none => intro h; cases h
  | some a => exact parseU32_tot a

theorem parseMaxOccurs_tot (o : Option XAttr) : (parseMaxOccurs o).Tot := by
  cases o with
  | none => intro h; cases h
  | some a =>
    show (if _ then _ else _ : Res XErr MaxOccurs).Tot
    split
    · intro h; cases h
    · exact .bind (parseU32_tot a) fun _ _ => .pure _

theorem parseFacet_tot (x : Ext) (c : Nd) : (parseFacet x c).Tot := by
  unfold parseFacet
  repeat' split
  all_goals first
    | (refine .bind (tryAttr_tot _ _) fun _ _ => ?_
       first
         | exact .pure _
         | exact .bind (parseUsize_tot _) fun _ _ => .pure _
         | exact .bind (parseDec_tot _ _) fun _ _ => .pure _)
    | (intro h; cases h)

theorem parseFacets_tot (x : Ext) : ∀ cs : List Nd, (parseFacets x cs).Tot
  | [] => by intro h; cases h
  | c :: cs => .bind (parseFacet_tot x c) fun _ _ => .bind (parseFacets_tot x cs) fun _ _ => .pure _

theorem capitalise_tot (n : Str) : (capitalise n).Tot := by
  intro h; unfold capitalise at h; split at h
  · cases h
  · split at h <;> cases h

theorem concatNames_tot : ∀ ns : List Str, (concatNames ns).Tot
  | [] => by intro h; cases h
  | n :: ns => .bind (capitalise_tot n) fun _ _ => .bind (concatNames_tot ns) fun _ _ => .pure _

theorem virtualName_tot (x : Ext) (ns : List Str) (b : Bool) : (virtualName x ns b).Tot := by
  unfold virtualName
  split
  · split
    · intro h; cases h
    · intro h; cases h
    · intro h; cases h
    · exact concatNames_tot _
  · exact concatNames_tot _

section
variable (x : Ext)

theorem deriveVirtualName_tot (ns : List Name) (b : Bool) : (deriveVirtualName x ns b).Tot := by
  intro s h
  unfold deriveVirtualName at h
  split at h
  · cases h
  · cases h
  · cases h
  · next hh => exact virtualName_tot _ _ _ hh

theorem addRoot_tot (n : Name) (r : Root) : (addRoot n r).Tot := P.Tot.modify _

theorem discoverType_tot (n p : Name) : (discoverType n p).Tot := P.Tot.modify _

theorem parseSimpleType_tot (nd : Nd) : (parseSimpleType x nd).Tot := by
  unfold parseSimpleType
  refine .bind' (.lift (preventUnvisitedAttributes_tot _)) fun _ => .bind' (.lift (parseAnnotation_tot _ _)) fun _ =>
    .bind' (.lift (tryRemoveKid_tot _ _ _)) fun a => ?_
  obtain ⟨r, rest⟩ := a
  refine .bind' (.lift (tryAttr_tot _ _)) fun _ => .bind' (getTypeName_tot _) fun c => ?_
  cases c with
  | literal t =>
    refine .bind' (.lift (preventUnvisitedChildren_tot _ _)) fun _ => .bind' (.lift (parseFacets_tot _ _)) fun a => ?_
    exact .pure _
  | named n => exact .fail _
  | fixed n => exact .fail _

theorem parseTypeAttr_tot (nd : Nd) (a : XAttr) (p : Name) : (parseTypeAttr nd a p).Tot := by
  unfold parseTypeAttr
  refine .bind' (getTypeName_tot _) fun c => ?_
  cases c with
  | literal t =>
    dsimp only
    split <;> exact .pure _
  | named n => exact .bind' (discoverType_tot _ _) fun _ => .pure _
  | fixed n => exact .pure _

theorem parseAttrContent_tot (nd : Nd) (n p : Name) (c : Option Nd) : (parseAttrContent x nd n p c).Tot := by
  cases c with
  | none => exact .bind' (.lift (tryAttr_tot _ _)) fun _ => parseTypeAttr_tot _ _ _
  | some c =>
    refine .bind' (parseSimpleType_tot x c) fun r => ?_
    split
    · exact .pure _
    · exact .bind' (.nodeName _) fun _ => .bind' (deriveVirtualName_tot x _ _) fun _ => .bind' (addRoot_tot _ _) fun _ =>
        .bind' (discoverType_tot _ _) fun _ => .pure _

theorem parseAttribute_tot (nd : Nd) (p : Name) : (parseAttribute x nd p).Tot := by
  unfold parseAttribute
  refine .bind' (.lift (tryAttr_tot _ _)) fun _ => .bind' (.lift (parseAnnotation_tot _ _)) fun _ =>
    .bind' (parseAttrContent_tot x _ _ _ _) fun a => ?_
  obtain ⟨c, nd'⟩ := a
  refine .bind' (.lift (preventUnvisitedChildren_tot _ _)) fun _ => ?_
  dsimp only
  split
  · exact .pure _
  · split
    · split
      · exact .fail _
      · exact .bind' (.lift (preventUnvisitedAttributes_tot _)) fun _ => .pure _
    · exact .fail _

theorem parseAttributes_tot (p : Name) : ∀ cs : List Nd, (parseAttributes x p cs).Tot
  | [] => .pure _
  | c :: cs => .bind' (parseAttribute_tot x c p) fun _ => .bind' (parseAttributes_tot p cs) fun _ => .pure _

theorem parseSimpleContent_tot (nd : Nd) (p : Name) : (parseSimpleContent x nd p).Tot := by
  unfold parseSimpleContent
  refine .bind' (.lift (preventUnvisitedAttributes_tot _)) fun _ => .bind' (.lift (tryRemoveKid_tot _ _ _)) fun a => ?_
  obtain ⟨e, rest⟩ := a
  refine .bind' (.lift (preventUnvisitedChildren_tot _ _)) fun _ => .bind' (.lift (tryAttr_tot _ _)) fun _ =>
    .bind' (getTypeName_tot _) fun c => .bind' ?_ fun _ => .bind' (parseAttributes_tot x _ _) fun _ =>
    .bind' (.lift (preventUnvisitedChildren_tot _ _)) fun _ => .pure _
  split
  · exact .bind' (discoverType_tot _ _) fun _ => .pure _
  · exact .pure _

theorem parseLeaves_tot {f : Nd → P (Option Leaf)} : ∀ {cs : List Nd}, (∀ c ∈ cs, (f c).Tot) → (parseLeaves f cs).Tot
  | [], _ => .pure _
  | c :: _, h => .bind' (h c (.head _)) fun _ => .bind' (parseLeaves_tot fun d hd => h d (.tail _ hd)) fun _ => .pure _

theorem addGroup_tot (p : Name) (ms : List Leaf) (sf : List Name) (r : Root) (docs : Option Str) (mn : Nat) (mx : MaxOccurs) :
    (addGroup x p ms sf r docs mn mx).Tot :=
  .bind' (deriveVirtualName_tot x _ _) fun _ => .bind' (deriveVirtualName_tot x _ _) fun _ => .bind' (addRoot_tot _ _) fun _ =>
    .bind' (discoverType_tot _ _) fun _ => .pure _

theorem kidsDepth_mem {n : XNode} : ∀ {l : List XNode}, n ∈ l → n.depth ≤ kidsDepth l
  | m :: l, h => by
    unfold kidsDepth
    rcases List.mem_cons.1 h with rfl | h
    · omega
    · have := kidsDepth_mem h; omega

theorem xsdKids_depth {nd c : Nd} (h : c ∈ nd.xsdKids) : kidsDepth c.kids + 1 ≤ kidsDepth nd.kids := by
  obtain ⟨e, he, rfl, _⟩ := mem_xsdKids h
  exact kidsDepth_mem he

theorem removeKid_mem {n : Str} {ks rest : List Nd} {k : Nd} (h : removeKid n ks = (some k, rest)) : k ∈ ks := by
  obtain ⟨a, b, rfl, _⟩ := removeKid_some h
  simp

theorem removeKid_rest_mem {n : Str} {ks : List Nd} {k : Nd} (h : k ∈ (removeKid n ks).2) : k ∈ ks := by
  obtain ⟨o, rest, hr⟩ : ∃ o r, removeKid n ks = (o, r) := ⟨_, _, rfl⟩
  rw [hr] at h
  cases o with
  | none => exact (removeKid_none hr).1 ▸ h
  | some c =>
    obtain ⟨a, b, rfl, rfl, _⟩ := removeKid_some hr
    rcases List.mem_append.1 h with h | h
    · exact List.mem_append_left _ h
    · exact List.mem_append_right _ (.tail _ h)

/-- With this much fuel, the functions of the parser do not run out of it. -/
structure AllTot (k : Nat) : Prop where
  root : ∀ nd p, 3 * kidsDepth nd.kids + 3 ≤ k → (parseRoot x k nd p).Tot
  elementRoot : ∀ nd p, 3 * kidsDepth nd.kids + 1 ≤ k → (parseElementRoot x k nd p).Tot
  complexType : ∀ nd p, 3 * kidsDepth nd.kids + 2 ≤ k → (parseComplexType x k nd p).Tot
  particle : ∀ D kids p, (∀ c ∈ kids, kidsDepth c.kids + 1 ≤ D) → 3 * D + 1 ≤ k → (parseParticle x k kids p).Tot
  complexContent : ∀ nd p, 3 * kidsDepth nd.kids + 2 ≤ k → (parseComplexContent x k nd p).Tot
  extension : ∀ o b p, 1 ≤ k → (∀ nd, o = some nd → 3 * kidsDepth nd.kids + 3 ≤ k) → (parseExtension x k o b p).Tot
  sequence : ∀ nd p, 3 * kidsDepth nd.kids + 2 ≤ k → (parseSequence x k nd p).Tot
  choice : ∀ nd p, 3 * kidsDepth nd.kids + 2 ≤ k → (parseChoice x k nd p).Tot
  elementChild : ∀ nd p, 3 * kidsDepth nd.kids + 4 ≤ k → (parseElementChild x k nd p).Tot

theorem allTot (k : Nat) : AllTot x k := by
  induction k with
  | zero =>
    constructor
    case particle => intro D kids p _ h; omega
    case extension => intro o b p h; omega
    all_goals (intro nd p h; omega)
  | succ k ih =>
    constructor
    case root =>
      intro nd p h
      unfold parseRoot
      split
      · exact ih.elementRoot _ _ (by omega)
      · split
        · exact ih.complexType _ _ (by omega)
        · split
          · exact parseSimpleType_tot x _
          · exact .fail _
    case elementRoot =>
      intro nd p h
      unfold parseElementRoot
      refine .bind' (.lift (parseAnnotation_tot _ _)) fun docs => ?_
      split
      · refine .bind' (parseTypeAttr_tot _ _ _) fun a => ?_
        exact .bind' (.lift (preventUnvisitedAttributes_tot _)) fun _ => .bind' (.lift (preventUnvisitedChildren_tot _ _)) fun _ => .pure _
      · refine .bind' (.lift (preventUnvisitedAttributes_tot _)) fun _ => ?_
        split
        · next hr =>
          have := xsdKids_depth (removeKid_rest_mem (removeKid_mem hr))
          exact .bind' (ih.complexType _ _ (by omega)) fun _ => .bind' (.lift (preventUnvisitedChildren_tot _ _)) fun _ => .pure _
        · split
          · exact .bind' (parseSimpleType_tot x _) fun _ => .bind' (.lift (preventUnvisitedChildren_tot _ _)) fun _ => .pure _
          · exact .fail _
    case complexType =>
      intro nd p h
      unfold parseComplexType
      split
      · exact .fail _
      · refine .bind' (.lift (preventUnvisitedAttributes_tot _)) fun _ => .bind' (.lift (parseAnnotation_tot _ _)) fun docs => ?_
        split
        · exact .bind' (.lift (preventUnvisitedChildren_tot _ _)) fun _ => .bind' (parseSimpleContent_tot x _ _) fun _ => .pure _
        · split
          · next hr =>
            have := xsdKids_depth (removeKid_rest_mem (removeKid_mem hr))
            exact .bind' (.lift (preventUnvisitedChildren_tot _ _)) fun _ => .bind' (ih.complexContent _ _ (by omega)) fun _ => .pure _
          · refine .bind' (ih.particle (kidsDepth nd.kids) _ _ (fun c hc => xsdKids_depth (removeKid_rest_mem hc)) (by omega)) fun a => ?_
            obtain ⟨c, rest⟩ := a
            exact .bind' (parseAttributes_tot x _ _) fun _ => .bind' (.lift (preventUnvisitedChildren_tot _ _)) fun _ => .pure _
    case particle =>
      intro D kids p hk h
      unfold parseParticle
      have hmem : ∀ {c rest}, (match removeKid c!"sequence" kids with
          | (some c, rest) => (some c, rest)
          | (none, _) => removeKid c!"all" kids) = (some c, rest) → c ∈ kids := by
        intro c rest hc
        split at hc
        · next hr => cases hc; exact removeKid_mem hr
        · exact removeKid_mem hc
      split
      · next hr =>
        have := hk _ (hmem hr)
        refine .bind' (.lift (parseMinOccurs_tot _)) fun mn => .bind' (.lift (parseMaxOccurs_tot _)) fun mx =>
          .bind' (ih.sequence _ _ ?_) fun ls => ?_
        · show 3 * kidsDepth _ + 2 ≤ k
          dsimp only [Nd.see]
          omega
        · dsimp only
          split
          · exact .bind' (addGroup_tot x _ _ _ _ _ _ _) fun _ => .pure _
          · exact .pure _
      · split
        · next hr =>
          have := hk _ (removeKid_mem hr)
          exact .bind' (ih.choice _ _ (by omega)) fun _ => .bind' (.nodeName _) fun _ => .bind' (deriveVirtualName_tot x _ _) fun _ =>
            .bind' (addRoot_tot _ _) fun _ => .bind' (discoverType_tot _ _) fun _ => .pure _
        · exact .pure _
    case complexContent =>
      intro nd p h
      unfold parseComplexContent
      refine .bind' (.lift (preventUnvisitedAttributes_tot _)) fun _ => .bind (.lift (tryRemoveKid_tot _ _ _)) fun s a s' ha => ?_
      obtain ⟨e, rest⟩ := a
      rw [P.lift_ok, tryRemoveKid_ok] at ha
      have he := xsdKids_depth (removeKid_mem ha.1)
      refine .bind' (.lift (preventUnvisitedChildren_tot _ _)) fun _ => .bind' (.lift (tryAttr_tot _ _)) fun b =>
        .bind' (getTypeName_tot _) fun c => ?_
      cases c with
      | literal t => exact .fail _
      | fixed t => exact .fail _
      | named n =>
        refine .bind' (discoverType_tot _ _) fun _ => .bind' (ih.extension _ _ _ (by omega) ?_) fun vl =>
          .bind' (parseAttributes_tot x _ _) fun _ => .bind' (.lift (preventUnvisitedChildren_tot _ _)) fun _ => ?_
        · intro nd' hn
          have := xsdKids_depth (removeKid_mem (Prod.ext hn rfl))
          omega
        · split
          · exact .pure _
          · exact .bind' (.nodeName _) fun _ => .pure _
    case extension =>
      intro o b p h1 h
      cases o with
      | none => exact .pure _
      | some c =>
        have hh := h c rfl
        unfold parseExtension
        refine .bind' (.lift (parseMinOccurs_tot _)) fun mn => .bind' (ih.sequence _ _ ?_) fun ls => .bind' (.nodeName _) fun _ =>
          .bind' (deriveVirtualName_tot x _ _) fun _ => .bind' (addRoot_tot _ _) fun _ => .bind' (discoverType_tot _ _) fun _ => .pure _
        show 3 * kidsDepth c.kids + 2 ≤ k
        omega
    case sequence =>
      intro nd p h
      unfold parseSequence
      refine .bind' (.lift (preventUnvisitedAttributes_tot _)) fun _ => parseLeaves_tot fun c hc => ?_
      have hd := xsdKids_depth hc
      split
      · exact .bind' (ih.elementChild _ _ (by omega)) fun _ => .pure _
      · split
        · refine .bind' (.lift (parseMinOccurs_tot _)) fun mn => .bind' (.lift (parseMaxOccurs_tot _)) fun mx =>
            .bind' (ih.choice _ _ ?_) fun _ => .bind' (addGroup_tot x _ _ _ _ _ _ _) fun _ => .pure _
          show 3 * kidsDepth c.kids + 2 ≤ k
          omega
        · split
          · refine .bind' (.lift (parseAnnotation_tot _ _)) fun _ => .bind' (.lift (parseMinOccurs_tot _)) fun mn =>
              .bind' (ih.sequence _ _ ?_) fun _ => .bind' (addGroup_tot x _ _ _ _ _ _ _) fun _ => .pure _
            show 3 * kidsDepth c.kids + 2 ≤ k
            omega
          · split
            · exact .pure _
            · exact .fail _
    case choice =>
      intro nd p h
      unfold parseChoice
      refine .bind' (.lift (preventUnvisitedAttributes_tot _)) fun _ => parseLeaves_tot fun c hc => ?_
      have hd := xsdKids_depth hc
      split
      · exact .bind' (ih.elementChild _ _ (by omega)) fun _ => .pure _
      · split
        · refine .bind' (.lift (parseAnnotation_tot _ _)) fun _ => .bind' (.lift (parseMinOccurs_tot _)) fun mn =>
            .bind' (.lift (parseMaxOccurs_tot _)) fun mx => .bind' (ih.sequence _ _ ?_) fun _ => .bind' (.nodeName _) fun _ =>
            .bind' (addGroup_tot x _ _ _ _ _ _ _) fun _ => .pure _
          show 3 * kidsDepth c.kids + 2 ≤ k
          omega
        · split
          · exact .pure _
          · exact .fail _
    case elementChild =>
      intro nd p h
      unfold parseElementChild
      refine .bind' (.lift (parseMinOccurs_tot _)) fun mn => .bind' (.lift (parseMaxOccurs_tot _)) fun mx => ?_
      dsimp only
      split
      · refine .bind' (.lift (preventUnvisitedAttributes_tot _)) fun _ => .bind' (getTypeName_tot _) fun c => ?_
        cases c with
        | named n => exact .bind' (discoverType_tot _ _) fun _ => .pure _
        | literal t => exact .fail _
        | fixed t => exact .fail _
      · refine .bind' (.lift (tryAttr_tot _ _)) fun _ => .bind' (.nodeName _) fun _ => .bind' (.lift (parseAnnotation_tot _ _)) fun docs => ?_
        split
        · refine .bind' (parseTypeAttr_tot _ _ _) fun a => ?_
          exact .bind' (.lift (preventUnvisitedAttributes_tot _)) fun _ => .pure _
        · split
          · exact .bind' (.lift (preventUnvisitedAttributes_tot _)) fun _ => .pure _
          · refine .bind' (.lift (preventUnvisitedAttributes_tot _)) fun _ => .bind' (.nodeName _) fun _ =>
              .bind' (deriveVirtualName_tot x _ _) fun _ => .bind' (ih.root _ _ ?_) fun _ => .bind' (addRoot_tot _ _) fun _ =>
              .bind' (discoverType_tot _ _) fun _ => .pure _
            show 3 * kidsDepth nd.kids + 3 ≤ k
            omega

end

end Xsd
