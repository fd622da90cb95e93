import Verif.Lemmas.Presentation
/-!
# Running the parser on documents that say the same
-/
namespace Xsd
namespace Pres

/-- Errors that say the same. -/
class Kin (ε : Type) where
  kin : ε → ε → Prop

instance : Kin XErr := ⟨SameXErr⟩

/-- Outcomes that agree, unless one of them is out of fuel. -/
inductive Sim {ε α β : Type} [Kin ε] (R : α → β → Prop) : Res ε α → Res ε β → Prop
  | ok {a : α} {b : β} (h : R a b) : Sim R (.ok a) (.ok b)
  | err {e e' : ε} (h : Kin.kin e e') : Sim R (.err e) (.err e')
  | panic : Sim R .panic .panic
  | left {r : Res ε β} : Sim R .diverge r
  | right {r : Res ε α} : Sim R r .diverge

theorem Sim.bind {ε α β γ δ : Type} [Kin ε] {R : α → β → Prop} {S : γ → δ → Prop} {m : Res ε α} {m' : Res ε β} {f : α → Res ε γ}
    {f' : β → Res ε δ} (h : Sim R m m') (hf : ∀ a b, R a b → Sim S (f a) (f' b)) : Sim S (m >>= f) (m' >>= f') := by
  cases h with
  | ok h => exact hf _ _ h
  | err h => exact .err h
  | panic => exact .panic
  | left => exact .left
  | right => exact .right

theorem Sim.pure {ε α β : Type} [Kin ε] {R : α → β → Prop} {a : α} {b : β} (h : R a b) : Sim R (Pure.pure a : Res ε α) (Pure.pure b : Res ε β) := .ok h

theorem Sim.ite {ε α β : Type} [Kin ε] {R : α → β → Prop} {c : Prop} [Decidable c] {a b : Res ε α} {a' b' : Res ε β} (h : Sim R a a')
    (h' : Sim R b b') : Sim R (if c then a else b) (if c then a' else b') := by
  split
  · exact h
  · exact h'

/-- What `Context::new` keeps of the declarations. -/
def docOf (D : List (Option Str × Str)) : List (Str × Str) :=
  D.foldl (fun m p => match p.1 with
    | some pfx => ainsert m pfx p.2
    | none => m) []

/-- The default namespace that `Context::new` keeps. -/
def defOf (D : List (Option Str × Str)) : Option Str := (D.find? (fun p => p.1 = none)).map Prod.snd

/-- States of the parser that agree in everything but the prefixes. -/
structure CtxSim (D D' : List (Option Str × Str)) (s s' : PCtx) : Prop where
  roots : s.roots = s'.roots
  target : s.target = s'.target
  isQualified : s.isQualified = s'.isQualified
  nss : s.nss = s'.nss
  deps : s.deps = s'.deps
  doc : s.docNss = docOf D
  doc' : s'.docNss = docOf D'
  dflt : s.defaultNs = defOf D
  dflt' : s'.defaultNs = defOf D'

/-- Parser steps that agree. -/
def PSim (D D' : List (Option Str × Str)) {α β : Type} (R : α → β → Prop) (m : P α) (m' : P β) : Prop :=
  ∀ s s', CtxSim D D' s s' → Sim (fun p q => R p.1 q.1 ∧ CtxSim D D' p.2 q.2) (m s) (m' s')

variable {D D' : List (Option Str × Str)} {nd nd' : Nd}

theorem PSim.bind {α β γ δ : Type} {R : α → β → Prop} {S : γ → δ → Prop} {m : P α} {m' : P β} {f : α → P γ} {f' : β → P δ}
    (h : PSim D D' R m m') (hf : ∀ a b, R a b → PSim D D' S (f a) (f' b)) : PSim D D' S (m >>= f) (m' >>= f') := by
  intro s s' hs
  show Sim _ (P.bnd m f s) (P.bnd m' f' s')
  unfold P.bnd
  have := h s s' hs
  revert this
  generalize m s = r
  generalize m' s' = r'
  intro this
  cases this with
  | ok h => exact hf _ _ h.1 _ _ h.2
  | err h => exact .err h
  | panic => exact .panic
  | left => exact .left
  | right => exact .right

theorem PSim.pure {α β : Type} {R : α → β → Prop} {a : α} {b : β} (h : R a b) : PSim D D' R (Pure.pure a) (Pure.pure b) :=
  fun _ _ hs => .ok ⟨h, hs⟩

theorem PSim.fail {α β : Type} {R : α → β → Prop} {e e' : XErr} (h : SameXErr e e') : PSim D D' R (P.fail e) (P.fail e') := fun _ _ _ => .err h

theorem PSim.lift {α β : Type} {R : α → β → Prop} {r : Res XErr α} {r' : Res XErr β} (h : Sim R r r') :
    PSim D D' R (P.lift r) (P.lift r') := by
  intro s s' hs
  cases h with
  | ok h => exact .ok ⟨h, hs⟩
  | err h => exact .err h
  | panic => exact .panic
  | left => exact .left
  | right => exact .right

theorem PSim.left {α β : Type} {R : α → β → Prop} {m : P β} : PSim D D' R (P.diverge : P α) m := fun _ _ _ => .left

theorem PSim.right {α β : Type} {R : α → β → Prop} {m : P α} : PSim D D' R m (P.diverge : P β) := fun _ _ _ => .right

theorem PSim.addRoot (n : Name) (r : Root) : PSim D D' Eq (addRoot n r) (addRoot n r) := by
  intro s s' hs
  refine .ok ⟨rfl, ⟨?_, hs.target, hs.isQualified, hs.nss, hs.deps, hs.doc, hs.doc', hs.dflt, hs.dflt'⟩⟩
  show ainsert s.roots n r = ainsert s'.roots n r
  rw [hs.roots]

theorem PSim.discoverType (n p : Name) : PSim D D' Eq (discoverType n p) (discoverType n p) := by
  intro s s' hs
  refine .ok ⟨rfl, ⟨hs.roots, hs.target, hs.isQualified, hs.nss, ?_, hs.doc, hs.doc', hs.dflt, hs.dflt'⟩⟩
  show ainsert s.deps p _ = ainsert s'.deps p _
  rw [hs.deps]

theorem nodeName_eq {s s' : PCtx} (hs : CtxSim D D' s s') (n : Str) (b : Bool) : s.nodeName n b = s'.nodeName n b := by
  unfold PCtx.nodeName
  rw [hs.isQualified, hs.target]

theorem PSim.nodeName (n : Str) : PSim D D' Eq (nodeName n) (nodeName n) :=
  fun _ _ hs => .ok ⟨nodeName_eq hs n false, hs⟩

theorem PSim.virtual (x : Ext) (ns : List Name) (b : Bool) : PSim D D' Eq (deriveVirtualName x ns b) (deriveVirtualName x ns b) := by
  intro s s' hs
  unfold deriveVirtualName
  cases virtualName x (ns.map Name.name) b with
  | ok n => exact .ok ⟨nodeName_eq hs n false, hs⟩
  | err e => exact .panic
  | panic => exact .panic
  | diverge => exact .left

/-! ## References -/

theorem docOf_foldl (D : List (Option Str × Str)) (hn : (D.map Prod.fst).Nodup) (m : List (Str × Str)) (p : Str) :
    alookup (D.foldl (fun m p => match p.1 with
      | some pfx => ainsert m pfx p.2
      | none => m) m) p = (alookup D (some p)).or (alookup m p) := by
  induction D generalizing m with
  | nil => rfl
  | cons d D ih =>
    obtain ⟨q, u⟩ := d
    rw [List.map_cons, List.nodup_cons] at hn
    rw [List.foldl_cons, ih hn.2]
    cases q with
    | none =>
      simp only [alookup]
      rfl
    | some q =>
      by_cases hq : q = p
      · subst hq
        have : alookup D (some q) = none := (alookup_eq_none_iff D (some q)).2 hn.1
        simp only [alookup_ainsert, this, alookup, if_true, Option.none_or, Option.some_or]
      · have h2 : ¬ (some q : Option Str) = some p := fun h => hq (Option.some.inj h)
        simp only [alookup_ainsert, alookup, if_neg hq, if_neg h2]

theorem docOf_eq (hn : (D.map Prod.fst).Nodup) (p : Str) : alookup (docOf D) p = alookup D (some p) := by
  unfold docOf
  rw [docOf_foldl D hn]
  cases alookup D (some p) <;> rfl

theorem defOf_eq (D : List (Option Str × Str)) : defOf D = alookup D none := by
  unfold defOf
  induction D with
  | nil => rfl
  | cons d D ih =>
    obtain ⟨q, u⟩ := d
    rw [List.find?_cons]
    unfold alookup
    cases q with
    | none => rfl
    | some q =>
      simp only [reduceCtorEq, decide_false, if_false] at ih ⊢
      exact ih

theorem getTypeName_meaning (hD : PlainDecls D) {s : PCtx} (hd : s.docNss = docOf D) (hf : s.defaultNs = defOf D) (a : XAttr) :
    (∃ p, meaning D a.value = none ∧ getTypeName a s = .err (.missingNamespace p a.start)) ∨
    (∃ n, meaning D a.value = some ⟨n, some nsXsd⟩ ∧ getTypeName a s = P.lift (literalOr n a) s) ∨
    (∃ n u, u ≠ nsXsd ∧ meaning D a.value = some ⟨n, some u⟩ ∧
      getTypeName a s = .ok (.named ⟨n, (s.nss.getOrInsert u).1⟩, { s with nss := (s.nss.getOrInsert u).2 })) ∨
    (∃ n, meaning D a.value = some ⟨n, none⟩ ∧ getTypeName a s = .ok (.named ⟨n, .none⟩, s)) := by
  unfold getTypeName meaning
  rcases splitn2 a.value with ⟨p, o⟩
  cases o with
  | some n =>
    simp only [hd, docOf_eq hD.unique]
    cases alookup D (some p) with
    | none => exact .inl ⟨_, rfl, rfl⟩
    | some u =>
      simp only
      by_cases hu : u = nsXsd
      · subst hu
        exact .inr (.inl ⟨n, rfl, by rw [if_pos rfl]⟩)
      · exact .inr (.inr (.inl ⟨n, u, hu, rfl, by rw [if_neg hu]⟩))
  | none =>
    simp only [hf, defOf_eq]
    cases hl : alookup D none with
    | none => exact .inr (.inr (.inr ⟨p, rfl, by rw [if_neg (by nofun)]⟩))
    | some u =>
      have := hD.dflt u (alookup_mem hl)
      subst this
      exact .inr (.inl ⟨p, rfl, by rw [if_pos rfl]⟩)

theorem PSim.getTypeName (hD : PlainDecls D) (hD' : PlainDecls D') {a a' : XAttr} (h : SameRef D D' a.value a'.value) :
    PSim D D' Eq (getTypeName a) (getTypeName a') := by
  intro s s' hs
  have hm := meaning_eq hD.unique hD'.unique h
  rcases getTypeName_meaning hD hs.doc hs.dflt a with ⟨e, h1, h2⟩ | ⟨n, h1, h2⟩ | ⟨n, u, hu, h1, h2⟩ | ⟨n, h1, h2⟩ <;>
  rcases getTypeName_meaning hD' hs.doc' hs.dflt' a' with ⟨e', h1', h2'⟩ | ⟨n', h1', h2'⟩ | ⟨n', u', hu', h1', h2'⟩ | ⟨n', h1', h2'⟩ <;>
  rw [h1, h1'] at hm <;> rw [h2, h2']
  case inl.inl => exact .err (.missingNamespace _ _ _ _)
  case inr.inl.inr.inl =>
    cases hm
    unfold literalOr
    cases literalFromStr n with
    | none => exact .err (.unsupportedType _ _ _)
    | some t => exact .ok ⟨rfl, hs⟩
  case inr.inr.inl.inr.inr.inl =>
    cases hm
    rw [hs.nss]
    exact .ok ⟨rfl, ⟨hs.roots, hs.target, hs.isQualified, rfl, hs.deps, hs.doc, hs.doc', hs.dflt, hs.dflt'⟩⟩
  case inr.inr.inr.inr.inr.inr =>
    cases hm
    exact .ok ⟨rfl, hs⟩
  all_goals first | (cases hm; done) | (cases hm; contradiction)

/-! ## Nodes -/

theorem tryAttr_sim (h : NdSim D D' nd nd') {n : Str} (hn : n ∈ schemaAttrs) : Sim (AttrSim D D' n) (nd.tryAttr n) (nd'.tryAttr n) := by
  unfold Nd.tryAttr
  rw [h.name]
  have := h.attr hn
  revert this
  generalize nd.attr n = o
  generalize nd'.attr n = o'
  intro this
  cases this with
  | none => exact .err (.missingAttribute _ _ _ _)
  | some h => exact .ok h

theorem prevent_sim (h : NdSim D D' nd nd') : Sim Eq nd.preventUnvisitedAttributes nd'.preventUnvisitedAttributes := by
  have key : nd.preventUnvisitedAttributes = .ok () ↔ nd'.preventUnvisitedAttributes = .ok () := by
    rw [prevent_ok_iff h.ptag, prevent_ok_iff h.ptag', h.seen]
    have ha := h.tag.attrs
    constructor <;> intro hk n hn <;> have h1 := hk n hn <;> have h2 := ha n <;> rw [h1] at h2
    · cases hx : attrOf nd'.info n with
      | none => rfl
      | some v => rw [hx] at h2; exact h2.elim
    · cases hx : attrOf nd.info n with
      | none => rfl
      | some v => rw [hx] at h2; exact h2.elim
  rcases prevent_cases nd with h1 | ⟨n, s, h1⟩ <;> rcases prevent_cases nd' with h2 | ⟨n', s', h2⟩
  · rw [h1, h2]; exact .ok rfl
  · rw [key.1 h1] at h2; cases h2
  · rw [key.2 h2] at h1; cases h1
  · rw [h1, h2, h.name]; exact .err (.unsupportedAttribute _ _ _ _ _)

theorem preventKids_sim {ks ks' : List Nd} (h : All2 (NdSim D D') ks ks') (hn : nd.name = nd'.name) :
    Sim Eq (preventUnvisitedChildren nd ks) (preventUnvisitedChildren nd' ks') := by
  cases h with
  | nil => exact .ok rfl
  | cons hk _ =>
    simp only [preventUnvisitedChildren, hn, hk.name]
    exact .err (.unsupportedChild _ _ _ _)

theorem tryRemove_sim {ks ks' : List Nd} (h : All2 (NdSim D D') ks ks') (nd nd' : Nd) (n : Str) :
    Sim (fun p q => NdSim D D' p.1 q.1 ∧ All2 (NdSim D D') p.2 q.2) (tryRemoveKid nd n ks) (tryRemoveKid nd' n ks') := by
  unfold tryRemoveKid
  have := removeKid_sim h n
  rcases hr : removeKid n ks with ⟨o, r⟩
  rcases hr' : removeKid n ks' with ⟨o', r'⟩
  rw [hr, hr'] at this
  obtain ⟨h1, h2⟩ := this
  cases h1 with
  | none => exact .err (.missingChild _ _ _)
  | some h => exact .ok ⟨h, h2⟩

theorem annotation_sim (x : Ext) {o o' : Option Nd} (h : OptSim (NdSim D D') o o') : Sim Eq (parseAnnotation x o) (parseAnnotation x o') := by
  cases h with
  | none => exact .ok rfl
  | @some nd nd' h =>
    show Sim Eq (parseAnnotation1 x nd) (parseAnnotation1 x nd')
    unfold parseAnnotation1
    have hr := removeKid_sim h.kids c!"documentation"
    refine .bind (R := Eq) ?_ fun docs docs' hd => ?_
    · rcases hk : removeKid c!"documentation" nd.xsdKids with ⟨o, r⟩
      rcases hk' : removeKid c!"documentation" nd'.xsdKids with ⟨o', r'⟩
      rw [hk, hk'] at hr
      obtain ⟨h1, _⟩ := hr
      cases h1 with
      | none => exact .ok rfl
      | @some d d' hd =>
        have hn : d.info.name = ⟨c!"documentation", some nsXsd⟩ := (rk_name (congrArg Prod.fst hk)).1
        simp only
        unfold Nd.tryText
        rw [hd.text hn, hd.name]
        cases d'.text with
        | none => exact .err (.textExpected _ _ _)
        | some t => exact .ok rfl
    · subst hd
      exact .bind (preventKids_sim (removeKids_sim hr.2 _).2 h.name) fun _ _ _ => .bind (prevent_sim h) fun _ _ _ => .ok rfl

theorem value_eq {n : Str} {a a' : XAttr} (h : AttrSim D D' n a a') (hn : n ∉ refAttrs) : a.value = a'.value := h.2 hn

theorem parseU32_sim {a a' : XAttr} (h : a.value = a'.value) : Sim Eq (parseU32 a) (parseU32 a') := by
  unfold parseU32
  rw [h]
  split
  · exact .ok rfl
  · exact .err (.parseInt _ _)

theorem parseUsize_sim {a a' : XAttr} (h : a.value = a'.value) : Sim Eq (parseUsize a) (parseUsize a') := by
  unfold parseUsize
  rw [h]
  split
  · exact .ok rfl
  · exact .err (.parseInt _ _)

theorem parseDec_sim (x : Ext) {a a' : XAttr} (h : a.value = a'.value) : Sim Eq (parseDec x a) (parseDec x a') := by
  unfold parseDec
  rw [h]
  split
  · exact .ok rfl
  · exact .err (.parseDecimal _ _)

theorem minOccurs_sim (h : NdSim D D' nd nd') : Sim Eq (parseMinOccurs (nd.attr c!"minOccurs")) (parseMinOccurs (nd'.attr c!"minOccurs")) := by
  have := h.attr (n := c!"minOccurs") (by decide)
  revert this
  generalize nd.attr _ = o
  generalize nd'.attr _ = o'
  intro this
  cases this with
  | none => exact .ok rfl
  | some h => exact parseU32_sim (h.2 (by decide))

theorem maxOccurs_sim (h : NdSim D D' nd nd') : Sim Eq (parseMaxOccurs (nd.attr c!"maxOccurs")) (parseMaxOccurs (nd'.attr c!"maxOccurs")) := by
  have := h.attr (n := c!"maxOccurs") (by decide)
  revert this
  generalize nd.attr _ = o
  generalize nd'.attr _ = o'
  intro this
  cases this with
  | none => exact .ok rfl
  | some h =>
    have hv := h.2 (by decide)
    unfold parseMaxOccurs
    simp only [hv]
    split
    · exact .ok rfl
    · exact .bind (parseU32_sim hv) fun a b hab => by subst hab; exact .ok rfl

section
variable (x : Ext)

theorem facet_sim (h : NdSim D D' nd nd') : Sim Eq (parseFacet x nd) (parseFacet x nd') := by
  have ht := tryAttr_sim h (n := c!"value") (by decide)
  unfold parseFacet
  rw [h.name]
  have hs : ∀ {f : XAttr → Str ⊕ Restriction}, (∀ a a', a.value = a'.value → f a = f a') →
      Sim Eq (do let a ← nd.tryAttr c!"value"; pure (f a) : Res XErr _) (do let a ← nd'.tryAttr c!"value"; pure (f a) : Res XErr _) :=
    fun hf => .bind ht fun a a' ha => .ok (hf a a' (ha.2 (by decide)))
  have hn : ∀ {f : Nat → Str ⊕ Restriction} {g : XAttr → Res XErr Nat}, (∀ a a', a.value = a'.value → Sim Eq (g a) (g a')) →
      Sim Eq (do let a ← nd.tryAttr c!"value"; let n ← g a; pure (f n) : Res XErr _)
        (do let a ← nd'.tryAttr c!"value"; let n ← g a; pure (f n) : Res XErr _) :=
    fun hg => .bind ht fun a a' ha => .bind (hg a a' (ha.2 (by decide))) fun n n' hn => by subst hn; exact .ok rfl
  have hu := fun a a' h => parseUsize_sim (a := a) (a' := a') h
  have hd := fun a a' h => parseDec_sim x (a := a) (a' := a') h
  exact .ite (hs fun a a' h => by rw [h]) (.ite (hn hu) (.ite (hn hu) (.ite (hn hu) (.ite (hs fun a a' h => by rw [h])
    (.ite (hn hd) (.ite (hn hd) (.ite (hn hu) (.ite (hn hu) (.err (.unsupportedElement _ _ _))))))))))

theorem facets_sim {ks ks' : List Nd} (h : All2 (NdSim D D') ks ks') : Sim Eq (parseFacets x ks) (parseFacets x ks') := by
  induction h with
  | nil => exact .ok rfl
  | cons h t ih =>
    unfold parseFacets
    exact .bind (facet_sim x h) fun a a' ha => .bind ih fun r r' hr => by subst ha; subst hr; exact .ok rfl

variable (hD : PlainDecls D) (hD' : PlainDecls D')
include hD hD'

theorem simpleType_sim (h : NdSim D D' nd nd') : PSim D D' Eq (parseSimpleType x nd) (parseSimpleType x nd') := by
  have hk := removeKid_sim h.kids c!"annotation"
  unfold parseSimpleType
  refine .bind (.lift (prevent_sim h)) fun _ _ _ => .bind (.lift (annotation_sim x hk.1)) fun docs docs' hd =>
    .bind (.lift (tryRemove_sim hk.2 _ _ _)) fun r r' hr => ?_
  obtain ⟨c, rest⟩ := r
  obtain ⟨c', rest'⟩ := r'
  obtain ⟨hc, hrest⟩ := hr
  simp only at hc hrest ⊢
  refine .bind (.lift (tryAttr_sim hc (n := c!"base") (by decide))) fun a a' ha =>
    .bind (.getTypeName hD hD' (ha.1 (by decide))) fun t t' ht => ?_
  subst hd ht
  cases t with
  | literal t =>
    refine .bind (.lift (preventKids_sim hrest h.name)) fun _ _ _ => .bind (.lift (facets_sim x hc.kids)) fun f f' hf => ?_
    subst hf
    exact .pure rfl
  | named n => exact .fail (.unsupportedRef _ _ _ _ _ _ (by decide))
  | fixed f => exact .fail (.unsupportedRef _ _ _ _ _ _ (by decide))

theorem typeAttr_sim (h : NdSim D D' nd nd') {a a' : XAttr} (ha : AttrSim D D' c!"type" a a') (parent : Name) :
    PSim D D' (fun p q => p.1 = q.1 ∧ NdSim D D' p.2 q.2) (parseTypeAttr nd a parent) (parseTypeAttr nd' a' parent) := by
  unfold parseTypeAttr
  refine .bind (.getTypeName hD hD' (ha.1 (by decide))) fun t t' ht => ?_
  subst ht
  cases t with
  | named n => exact .bind (.discoverType n parent) fun _ _ _ => .pure ⟨rfl, h⟩
  | literal t =>
    have := h.attr (n := c!"fixed") (by decide)
    simp only
    revert this
    generalize nd.attr c!"fixed" = o
    generalize nd'.attr c!"fixed" = o'
    intro this
    cases this with
    | none => exact .pure ⟨rfl, h.see _⟩
    | some hf => exact .pure ⟨congrArg LeafContent.fixed (hf.2 (by decide)), h.see _⟩
  | fixed f => exact .pure ⟨rfl, h⟩

theorem attrContent_sim (h : NdSim D D' nd nd') (name parent : Name) {o o' : Option Nd} (ho : OptSim (NdSim D D') o o') :
    PSim D D' (fun p q => p.1 = q.1 ∧ NdSim D D' p.2 q.2) (parseAttrContent x nd name parent o) (parseAttrContent x nd' name parent o') := by
  unfold parseAttrContent
  cases ho with
  | none =>
    exact .bind (.lift (tryAttr_sim h (n := c!"type") (by decide))) fun a a' ha => typeAttr_sim hD hD' (h.see _) ha parent
  | some hc =>
    refine .bind (simpleType_sim x hD hD' hc) fun r r' hr => ?_
    subst hr
    have key : PSim D D' (fun p q => p.1 = q.1 ∧ NdSim D D' p.2 q.2) (do
          let data ← nodeName c!"Data"
          let vname ← deriveVirtualName x [parent, name, data] false
          addRoot vname r
          discoverType vname parent
          pure (LeafContent.named vname, nd) : P (LeafContent × Nd)) (do
          let data ← nodeName c!"Data"
          let vname ← deriveVirtualName x [parent, name, data] false
          addRoot vname r
          discoverType vname parent
          pure (LeafContent.named vname, nd') : P (LeafContent × Nd)) := by
      refine .bind (.nodeName _) fun d d' hd => ?_
      subst hd
      refine .bind (.virtual x _ _) fun v v' hv => ?_
      subst hv
      exact .bind (.addRoot _ _) fun _ _ _ => .bind (.discoverType _ _) fun _ _ _ => .pure ⟨rfl, h⟩
    split
    · exact .pure ⟨rfl, h⟩
    · exact key

omit hD hD' in
theorem optVal_eq (h : NdSim D D' nd nd') {n : Str} (hn : n ∈ schemaAttrs) (hr : n ∉ refAttrs) :
    (nd.attr n).map XAttr.value = (nd'.attr n).map XAttr.value := by
  have := h.attr hn
  revert this
  generalize nd.attr n = o
  generalize nd'.attr n = o'
  intro this
  cases this with
  | none => rfl
  | some h => exact congrArg some (h.2 hr)

theorem attribute_sim (h : NdSim D D' nd nd') (parent : Name) :
    PSim D D' Eq (parseAttribute x nd parent) (parseAttribute x nd' parent) := by
  unfold parseAttribute
  refine .bind (.lift (tryAttr_sim h (n := c!"name") (by decide))) fun a a' ha => ?_
  have hk := removeKid_sim (h.see c!"name").kids c!"annotation"
  have hq := removeKid_sim hk.2 c!"simpleType"
  have hav : a.value = a'.value := ha.2 (by decide)
  rw [hav]
  refine .bind (.lift (annotation_sim x hk.1)) fun docs docs' hd => ?_
  subst hd
  refine .bind (attrContent_sim x hD hD' (h.see _) _ _ hq.1) fun r r' hr => ?_
  obtain ⟨c, n⟩ := r
  obtain ⟨c', n'⟩ := r'
  obtain ⟨hc, hn⟩ := hr
  simp only at hc hn ⊢
  subst hc
  refine .bind (.lift (preventKids_sim hq.2 hn.name)) fun _ _ _ => ?_
  rw [optVal_eq hn (n := c!"default") (by decide) (by decide), optVal_eq hn (n := c!"use") (by decide) (by decide)]
  split
  · exact .pure rfl
  · split
    · split
      · rw [((hn.see _).see _).name]; exact .fail (.unexpectedAttribute _ _ _ _)
      · exact .bind (.lift (prevent_sim ((hn.see _).see _))) fun _ _ _ => .pure rfl
    · rw [((hn.see _).see _).name]; exact .fail (.unsupportedValue _ _ _ _ _)

theorem attributes_sim (parent : Name) {ks ks' : List Nd} (h : All2 (NdSim D D') ks ks') :
    PSim D D' Eq (parseAttributes x parent ks) (parseAttributes x parent ks') := by
  induction h with
  | nil => exact .pure rfl
  | cons h t ih =>
    unfold parseAttributes
    exact .bind (attribute_sim x hD hD' h parent) fun a a' ha => .bind ih fun r r' hr => by subst ha; subst hr; exact .pure rfl

theorem simpleContent_sim (h : NdSim D D' nd nd') (parent : Name) :
    PSim D D' Eq (parseSimpleContent x nd parent) (parseSimpleContent x nd' parent) := by
  unfold parseSimpleContent
  refine .bind (.lift (prevent_sim h)) fun _ _ _ => .bind (.lift (tryRemove_sim h.kids _ _ _)) fun r r' hr => ?_
  obtain ⟨c, rest⟩ := r
  obtain ⟨c', rest'⟩ := r'
  obtain ⟨hc, hrest⟩ := hr
  simp only at hc hrest ⊢
  refine .bind (.lift (preventKids_sim hrest h.name)) fun _ _ _ => .bind (.lift (tryAttr_sim hc (n := c!"base") (by decide))) fun a a' ha =>
    .bind (.getTypeName hD hD' (ha.1 (by decide))) fun t t' ht => ?_
  subst ht
  refine .bind (R := Eq) ?_ fun l l' hl => ?_
  · cases t with
    | named n => exact .bind (.discoverType _ _) fun _ _ _ => .pure rfl
    | literal t => exact .pure rfl
    | fixed f => exact .pure rfl
  · subst hl
    have hks := removeKids_sim hc.kids c!"attribute"
    exact .bind (attributes_sim x hD hD' parent hks.1) fun as as' has => by
      subst has
      exact .bind (.lift (preventKids_sim hks.2 hc.name)) fun _ _ _ => .pure rfl

omit hD hD' in
theorem leaves_sim {f g : Nd → P (Option Leaf)} {ks ks' : List Nd} (h : All2 (NdSim D D') ks ks')
    (hf : ∀ k k', NdSim D D' k k' → PSim D D' Eq (f k) (g k')) : PSim D D' Eq (parseLeaves f ks) (parseLeaves g ks') := by
  induction h with
  | nil => exact .pure rfl
  | cons h t ih =>
    unfold parseLeaves
    exact .bind (hf _ _ h) fun a a' ha => .bind ih fun r r' hr => by subst ha; subst hr; exact .pure rfl

omit hD hD' in
theorem addGroup_sim (parent : Name) (ms : List Leaf) (sf : List Name) (r : Root) (docs : Option Str) (mn : Nat) (mx : MaxOccurs) :
    PSim D D' Eq (addGroup x parent ms sf r docs mn mx) (addGroup x parent ms sf r docs mn mx) := by
  unfold addGroup
  refine .bind (.virtual x _ _) fun l l' hl => ?_
  subst hl
  refine .bind (.virtual x _ _) fun v v' hv => ?_
  subst hv
  exact .bind (.addRoot _ _) fun _ _ _ => .bind (.discoverType _ _) fun _ _ _ => .pure rfl

end

end Pres
end Xsd
