import Verif.Lemmas.Strip
/-!
# The parser does not depend on harmless foreign attributes
-/
namespace Xsd

theorem P.bind_congr {α β : Type} {m m' : P α} {f f' : α → P β} (h : m = m') (hf : ∀ a, f a = f' a) :
    (m >>= f) = (m' >>= f') := by
  rw [h, funext hf]

/-- The results of a computation satisfy `Q`. -/
def P.Gives {α : Type} (m : P α) (Q : α → Prop) : Prop := ∀ s a s', m s = .ok (a, s') → Q a

theorem P.bind_congr_of {α β : Type} {m : P α} {f f' : α → P β} {Q : α → Prop} (hQ : m.Gives Q) (hf : ∀ a, Q a → f a = f' a) :
    (m >>= f) = (m >>= f') := by
  funext s
  show P.bnd m f s = P.bnd m f' s
  unfold P.bnd
  cases h : m s with
  | ok r => exact congrFun (hf r.1 (hQ s r.1 r.2 h)) r.2
  | err e => rfl
  | panic => rfl
  | diverge => rfl

theorem P.bind_map {α β γ : Type} (m : P α) (g : α → β) (f : β → P γ) :
    ((do let a ← m; pure (g a) : P β) >>= f) = (m >>= fun a => f (g a)) := by
  funext s
  show P.bnd (P.bnd m _) f s = P.bnd m _ s
  unfold P.bnd
  cases m s <;> rfl

section
variable (x : Ext)

theorem strip_tryText (nd : Nd) : nd.strip.tryText = nd.tryText := by
  unfold Nd.tryText
  rw [strip_text]
  rfl

theorem strip_annotation1 {nd : Nd} (h : nd.Harmless) : parseAnnotation1 x nd.strip = parseAnnotation1 x nd := by
  unfold parseAnnotation1
  simp only [strip_xsdKids, strip_removeKid, strip_removeKids, strip_preventChildren, strip_prevent h]
  cases (removeKid c!"documentation" nd.xsdKids).1 with
  | none => rfl
  | some d => simp only [Option.map_some, strip_tryText]

theorem strip_annotation {o : Option Nd} (h : ∀ c, o = some c → c.Harmless) :
    parseAnnotation x (o.map Nd.strip) = parseAnnotation x o := by
  cases o with
  | none => rfl
  | some c => exact strip_annotation1 x (h c rfl)

theorem strip_facet {c : Nd} (h : c.Harmless) : parseFacet x c.strip = parseFacet x c := by
  unfold parseFacet
  rw [strip_tryAttr h (show c!"value" ∈ knownAttrs by decide)]
  rfl

theorem strip_facets {cs : List Nd} (h : ∀ c ∈ cs, c.Harmless) : parseFacets x (cs.map Nd.strip) = parseFacets x cs := by
  induction cs with
  | nil => rfl
  | cons c cs ih =>
    simp only [List.map_cons, parseFacets]
    rw [strip_facet x (h c (.head _)), ih (fun d hd => h d (.tail _ hd))]

theorem strip_try {nd : Nd} {n : Str} {ks : List Nd} (h : ∀ c ∈ ks, c.Harmless) :
    (∃ c rest, tryRemoveKid nd n ks = .ok (c, rest) ∧ tryRemoveKid nd.strip n (ks.map Nd.strip) = .ok (c.strip, rest.map Nd.strip) ∧
      c.Harmless ∧ ∀ d ∈ rest, d.Harmless) ∨
    ∃ e, tryRemoveKid nd n ks = .err e ∧ tryRemoveKid nd.strip n (ks.map Nd.strip) = .err e := by
  have hk := removeKid_harmless (n := n) h
  unfold tryRemoveKid
  rw [strip_removeKid]
  obtain ⟨o, rest, hr⟩ : ∃ o r, removeKid n ks = (o, r) := ⟨_, _, rfl⟩
  rw [hr] at hk ⊢
  cases o with
  | none => exact .inr ⟨_, rfl, rfl⟩
  | some c => exact .inl ⟨c, rest, rfl, rfl, hk.1 c rfl, hk.2⟩

theorem lift_err_bind {α β : Type} (e : XErr) (f : α → P β) : (P.lift (.err e) >>= f) = (P.fail e : P β) := rfl

theorem lift_ok_bind {α β : Type} (a : α) (f : α → P β) : (P.lift (.ok a) >>= f) = f a := rfl

theorem strip_simpleType {nd : Nd} (h : nd.Harmless) : parseSimpleType x nd.strip = parseSimpleType x nd := by
  unfold parseSimpleType
  have hk := removeKid_harmless (n := c!"annotation") h.kids
  simp only [strip_prevent h, strip_xsdKids, strip_removeKid, strip_annotation x hk.1]
  refine P.bind_congr rfl fun _ => P.bind_congr rfl fun docs => ?_
  rcases strip_try (nd := nd) (n := c!"restriction") hk.2 with ⟨c, rest, h1, h2, hc, hrest⟩ | ⟨e, h1, h2⟩
  · rw [h1, h2, lift_ok_bind, lift_ok_bind]
    simp only [strip_tryAttr hc (show c!"base" ∈ knownAttrs by decide), strip_preventChildren, strip_xsdKids, strip_facets x hc.kids]
  · rw [h1, h2]
    rfl

theorem strip_typeAttr {nd : Nd} (h : nd.Harmless) (a : XAttr) (parent : Name) :
    parseTypeAttr nd.strip a parent = (do let r ← parseTypeAttr nd a parent; pure (r.1, r.2.strip)) := by
  unfold parseTypeAttr
  rw [strip_attr h (show c!"fixed" ∈ knownAttrs by decide)]
  funext s
  show P.bnd _ _ s = P.bnd (P.bnd _ _) _ s
  unfold P.bnd
  cases getTypeName a s with
  | err e => rfl
  | panic => rfl
  | diverge => rfl
  | ok r =>
    obtain ⟨c, s'⟩ := r
    cases c with
    | literal t => cases nd.attr c!"fixed" <;> rfl
    | named n => rfl
    | fixed f => rfl

theorem typeAttr_harmless {nd : Nd} (h : nd.Harmless) (a : XAttr) (parent : Name) :
    (parseTypeAttr nd a parent).Gives (fun r => r.2.Harmless) := by
  intro s r s' hr
  have hh : ∀ n, (nd.see n).Harmless := fun n => h.see n
  unfold parseTypeAttr at hr
  replace hr : P.bnd (getTypeName a) _ s = _ := hr
  unfold P.bnd at hr
  cases hg : getTypeName a s with
  | err e => rw [hg] at hr; cases hr
  | panic => rw [hg] at hr; cases hr
  | diverge => rw [hg] at hr; cases hr
  | ok q =>
    obtain ⟨c, s1⟩ := q
    rw [hg] at hr
    cases c with
    | literal t =>
      cases ha : nd.attr c!"fixed" with
      | none => simp only [ha] at hr; cases hr; exact hh _
      | some f => simp only [ha] at hr; cases hr; exact hh _
    | named n => cases hr; exact h
    | fixed f => cases hr; exact h

theorem strip_attrContent {nd : Nd} (h : nd.Harmless) (name parent : Name) {o : Option Nd} (ho : ∀ c, o = some c → c.Harmless) :
    parseAttrContent x nd.strip name parent (o.map Nd.strip) =
      (do let r ← parseAttrContent x nd name parent o; pure (r.1, r.2.strip)) := by
  cases o with
  | none =>
    unfold parseAttrContent
    simp only [Option.map_none, strip_tryAttr h (show c!"type" ∈ knownAttrs by decide)]
    cases nd.tryAttr c!"type" with
    | ok a => exact strip_typeAttr (h.see c!"type") a parent
    | err e => rfl
    | panic => rfl
    | diverge => rfl
  | some c =>
    unfold parseAttrContent
    simp only [Option.map_some, strip_simpleType x (ho c rfl)]
    funext s
    show P.bnd _ _ s = P.bnd (P.bnd _ _) _ s
    unfold P.bnd
    cases parseSimpleType x c s with
    | err e => rfl
    | panic => rfl
    | diverge => rfl
    | ok r =>
      obtain ⟨root, s'⟩ := r
      have key : (do
          let data ← nodeName c!"Data"
          let vname ← deriveVirtualName x [parent, name, data] false
          addRoot vname root
          discoverType vname parent
          pure (LeafContent.named vname, nd.strip) : P (LeafContent × Nd)) s' = P.bnd (do
          let data ← nodeName c!"Data"
          let vname ← deriveVirtualName x [parent, name, data] false
          addRoot vname root
          discoverType vname parent
          pure (LeafContent.named vname, nd) : P (LeafContent × Nd)) (fun r => pure (r.1, r.2.strip)) s' := by
        simp only [bind, P.bnd, nodeName]
        cases deriveVirtualName x _ false s' <;> rfl
      cases root with
      | leaf d =>
        obtain ⟨c, _, _⟩ := d
        cases c with
        | literal t => rfl
        | named n => exact key
        | fixed f => exact key
      | enum ns => exact key
      | element d => exact key
      | choice vs v d => exact key

theorem attrContent_harmless {nd : Nd} (h : nd.Harmless) (name parent : Name) (o : Option Nd) :
    (parseAttrContent x nd name parent o).Gives (fun r => r.2.Harmless) := by
  intro s r s' hr
  cases o with
  | none =>
    unfold parseAttrContent at hr
    cases ha : nd.tryAttr c!"type" with
    | ok a => simp only [ha] at hr; exact typeAttr_harmless (h.see c!"type") a parent s r s' hr
    | err e => simp only [ha] at hr; cases hr
    | panic => simp only [ha] at hr; cases hr
    | diverge => simp only [ha] at hr; cases hr
  | some c =>
    unfold parseAttrContent at hr
    pbind hr with root s1 h1
    have key : ∀ {hr : (do
          let data ← nodeName c!"Data"
          let vname ← deriveVirtualName x [parent, name, data] false
          addRoot vname root
          discoverType vname parent
          pure (LeafContent.named vname, nd) : P (LeafContent × Nd)) s1 = .ok (r, s')}, r.2.Harmless := by
      intro hr
      pbind hr with data s2 h2
      pbind hr with v s3 h3
      pbind hr with u s4 h4
      pbind hr with w s5 h5
      pret hr
      exact h
    split at hr
    · pret hr
      exact h
    · exact key (hr := hr)

theorem strip_attribute {nd : Nd} (h : nd.Harmless) (parent : Name) : parseAttribute x nd.strip parent = parseAttribute x nd parent := by
  unfold parseAttribute
  have hk := removeKid_harmless (n := c!"annotation") h.kids
  have hq := removeKid_harmless (n := c!"simpleType") hk.2
  rw [strip_tryAttr h (show c!"name" ∈ knownAttrs by decide)]
  refine P.bind_congr rfl fun na => ?_
  have hx : (nd.strip.see c!"name").xsdKids = nd.xsdKids.map Nd.strip := strip_xsdKids nd
  have hx' : (nd.see c!"name").xsdKids = nd.xsdKids := rfl
  simp only [hx, hx', strip_removeKid, strip_annotation x hk.1]
  refine P.bind_congr rfl fun docs => ?_
  rw [← strip_see, strip_attrContent x (h.see c!"name") _ _ hq.1, P.bind_map]
  refine P.bind_congr_of (attrContent_harmless x (h.see c!"name") _ _ _) fun r hr => ?_
  obtain ⟨content, nd'⟩ := r
  have hs2 : ((nd'.see c!"default").see c!"use").Harmless := hr
  simp only [strip_preventChildren, strip_attr hr (show c!"default" ∈ knownAttrs by decide),
    strip_attr hr (show c!"use" ∈ knownAttrs by decide), ← strip_see, strip_prevent hs2, strip_name, strip_start]

theorem strip_attributes (parent : Name) {cs : List Nd} (h : ∀ c ∈ cs, c.Harmless) :
    parseAttributes x parent (cs.map Nd.strip) = parseAttributes x parent cs := by
  induction cs with
  | nil => rfl
  | cons c cs ih =>
    simp only [List.map_cons, parseAttributes]
    rw [strip_attribute x (h c (.head _)), ih (fun d hd => h d (.tail _ hd))]

theorem removeKids_harmless {n : Str} {ks : List Nd} (h : ∀ c ∈ ks, c.Harmless) :
    (∀ c ∈ (removeKids n ks).1, c.Harmless) ∧ ∀ c ∈ (removeKids n ks).2, c.Harmless :=
  ⟨fun c hc => h c (List.mem_filter.1 hc).1, fun c hc => h c (List.mem_filter.1 hc).1⟩

theorem strip_simpleContent {nd : Nd} (h : nd.Harmless) (parent : Name) :
    parseSimpleContent x nd.strip parent = parseSimpleContent x nd parent := by
  unfold parseSimpleContent
  rw [strip_prevent h, strip_xsdKids]
  refine P.bind_congr rfl fun _ => ?_
  rcases strip_try (nd := nd) (n := c!"extension") h.kids with ⟨c, rest, h1, h2, hc, hrest⟩ | ⟨e, h1, h2⟩
  · rw [h1, h2, lift_ok_bind, lift_ok_bind]
    simp only [strip_tryAttr hc (show c!"base" ∈ knownAttrs by decide), strip_preventChildren, strip_xsdKids, strip_removeKids,
      strip_attributes x parent (removeKids_harmless hc.kids).1]
  · rw [h1, h2]
    rfl

theorem strip_leaves {f g : Nd → P (Option Leaf)} {cs : List Nd} (h : ∀ c ∈ cs, f c.strip = g c) :
    parseLeaves f (cs.map Nd.strip) = parseLeaves g cs := by
  induction cs with
  | nil => rfl
  | cons c cs ih =>
    simp only [List.map_cons, parseLeaves]
    rw [h c (.head _), ih (fun d hd => h d (.tail _ hd))]

end

end Xsd
