import Verif.Lemmas.WiderWrite
import Verif.Lemmas.Encode
/-!
# Code generated for a wider schema
-/
namespace Xsd
variable {x : Ext} {S S' : SchemaContext} {P P' : List TypeDef} {N : Additions}

/-- If both return something, it is the same. -/
def Res.Agree {ε α : Type} (r r' : Res ε α) : Prop := ∀ a b, r = .ok a → r' = .ok b → b = a

theorem Res.Agree.refl {ε α : Type} (r : Res ε α) : r.Agree r := fun a b h h' => by rw [h] at h'; exact (Res.ok.inj h').symm

theorem Res.Agree.bind {ε α β : Type} {r r' : Res ε α} {f f' : α → Res ε β} (h : r.Agree r') (hf : ∀ a, r = .ok a → (f a).Agree (f' a)) :
    (r >>= f).Agree (r' >>= f') := by
  intro a b ha hb
  rw [Res.bind_eq_ok] at ha hb
  obtain ⟨c, hc, ha⟩ := ha
  obtain ⟨c', hc', hb⟩ := hb
  cases h _ _ hc hc'
  exact hf c hc a b ha hb

/-! ## Lists -/

theorem Inserts.mono {α : Type} {p q : α → Prop} {as bs : List α} (h : Inserts p as bs) (hp : ∀ b, p b → q b) : Inserts q as bs := by
  induction h with
  | nil => exact .nil
  | keep _ ih => exact .keep ih
  | new hb _ ih => exact .new (hp _ hb) ih

theorem Inserts.map {α β : Type} {p : α → Prop} {as bs : List α} (h : Inserts p as bs) (f : α → β) : ∀ b ∈ as.map f, b ∈ bs.map f := by
  intro b hb
  obtain ⟨a, ha, rfl⟩ := List.mem_map.1 hb
  exact List.mem_map.2 ⟨a, h.mem ha, rfl⟩

theorem Inserts.mem_or {α : Type} {p : α → Prop} {as bs : List α} (h : Inserts p as bs) {b : α} (hb : b ∈ bs) : b ∈ as ∨ p b := by
  induction h with
  | nil => exact .inl hb
  | keep _ ih =>
    rcases List.mem_cons.1 hb with rfl | hb
    · exact .inl List.mem_cons_self
    · exact (ih hb).imp (List.mem_cons_of_mem _) id
  | new hp _ ih =>
    rcases List.mem_cons.1 hb with rfl | hb
    · exact .inr hp
    · exact ih hb

theorem enumWider {x : Ext} {S S' : SchemaContext} {N : Additions} {ns ns' : List Name} (hi : Inserts (fun n => n.name ∈ N.values) ns ns')
    (hd : (ns'.map Name.name).Nodup) {d d' : Decl} (h : rootDecl x S (.enum ns) = .ok d) (h' : rootDecl x S' (.enum ns') = .ok d') :
    ∃ vs vs', d = .enum vs ∧ d' = .enum vs' ∧ EnumWider N vs vs' := by
  obtain ⟨vs, ht, hdd, _⟩ := rootDecl_enum h
  obtain ⟨vs', ht', hdd', _⟩ := rootDecl_enum h'
  obtain ⟨tab, hv, hs, _⟩ := C25_variants (x := x) ns
  obtain ⟨tab', hv', hs', _⟩ := C25_variants (x := x) ns'
  rw [ht] at hv; cases hv
  rw [ht'] at hv'; cases hv'
  refine ⟨vs, vs', hdd, hdd', .inr ⟨?_, ?_, ?_⟩⟩
  · rw [hs, hs']
    exact hi.map _
  · rw [hs, hs']
    intro s hm
    obtain ⟨n, hn, rfl⟩ := List.mem_map.1 hm
    exact (hi.mem_or hn).imp (fun h => List.mem_map.2 ⟨n, h, rfl⟩) id
  · rw [hs']
    exact hd

theorem Inserts.mapRes {α β : Type} {p : α → Prop} {q : β → Prop} {f f' : α → Res Str β} {as bs : List α} (h : Inserts p as bs)
    (hk : ∀ a ∈ as, (f a).Agree (f' a)) (hn : ∀ b r, p b → f' b = .ok r → q r) {rs rs' : List β} (hr : Xsd.mapRes f as = .ok rs)
    (hr' : Xsd.mapRes f' bs = .ok rs') : Inserts q rs rs' := by
  induction h generalizing rs rs' with
  | nil => cases hr; cases hr'; exact .nil
  | @keep a as bs _ ih =>
    obtain ⟨r, rs, h1, h2, rfl⟩ := mapRes_cons_ok.1 hr
    obtain ⟨r', rs', h1', h2', rfl⟩ := mapRes_cons_ok.1 hr'
    cases hk a (List.mem_cons_self ..) _ _ h1 h1'
    exact .keep (ih (fun a ha => hk a (List.mem_cons_of_mem _ ha)) h2 h2')
  | new hb _ ih =>
    obtain ⟨r', rs', h1', h2', rfl⟩ := mapRes_cons_ok.1 hr'
    exact .new (hn _ _ hb h1') (ih hk hr h2')

/-- What is inserted is not there already, if no label occurs twice. -/
theorem Inserts.fresh {α β : Type} {p : α → Prop} {as bs : List α} (h : Inserts p as bs) (g : α → β) (hn : (bs.map g).Nodup) :
    Inserts (fun b => p b ∧ b ∈ bs ∧ g b ∉ as.map g) as bs := by
  have key : ∀ {as bs : List α}, Inserts p as bs → (bs.map g).Nodup → ∀ cs : List α, (∀ b ∈ bs, b ∈ cs) →
      ∀ E : List β, (∀ b ∈ bs, g b ∉ E) → Inserts (fun b => p b ∧ b ∈ cs ∧ g b ∉ E ++ as.map g) as bs := by
    intro as bs h
    induction h with
    | nil => intro _ _ _ _ _; exact .nil
    | @keep a as bs h ih =>
      intro hn cs hcs E hE
      simp only [List.map_cons, List.nodup_cons] at hn
      refine .keep ((ih hn.2 cs (fun b hb => hcs b (List.mem_cons_of_mem _ hb)) (E ++ [g a]) ?_).mono ?_)
      · intro b hb hm
        rcases List.mem_append.1 hm with hm | hm
        · exact hE b (List.mem_cons_of_mem _ hb) hm
        · exact hn.1 (List.mem_singleton.1 hm ▸ List.mem_map.2 ⟨b, hb, rfl⟩)
      · rintro b ⟨h1, h2, h3⟩
        exact ⟨h1, h2, by simpa using h3⟩
    | @new b as bs hb h ih =>
      intro hn cs hcs E hE
      simp only [List.map_cons, List.nodup_cons] at hn
      refine .new ⟨hb, hcs b (List.mem_cons_self ..), ?_⟩
        (ih hn.2 cs (fun b hb => hcs b (List.mem_cons_of_mem _ hb)) E (fun b hb => hE b (List.mem_cons_of_mem _ hb)))
      intro hm
      rcases List.mem_append.1 hm with hm | hm
      · exact hE b (List.mem_cons_self ..) hm
      · exact hn.1 (h.map g _ hm)
  exact (key h hn bs (fun _ h => h) [] (fun _ _ h => nomatch h)).mono (fun b hb => hb)

theorem mapRes_labels {α β γ δ : Type} {f : α → Res Str β} {g : α → Res Str γ} {lb : β → δ} {lg : γ → δ}
    (hl : ∀ a b c, f a = .ok b → g a = .ok c → lb b = lg c) {as : List α} {bs : List β} {cs : List γ} (hb : mapRes f as = .ok bs)
    (hc : mapRes g as = .ok cs) : bs.map lb = cs.map lg := by
  induction as generalizing bs cs with
  | nil => cases hb; cases hc; rfl
  | cons a as ih =>
    obtain ⟨b, bs, h1, h2, rfl⟩ := mapRes_cons_ok.1 hb
    obtain ⟨c, cs, h1', h2', rfl⟩ := mapRes_cons_ok.1 hc
    simp only [List.map_cons, hl a b c h1 h1', ih h2 h2']

/-! ## Schemas -/

theorem Wider.leaf (W : Wider S S' N) {n : Name} {d : LeafDef} (h : S.get n = some (.leaf d)) : S'.get n = some (.leaf d) := by
  obtain ⟨r', hr', hw⟩ := W.types _ _ h
  cases hw
  exact hr'

theorem Wider.notLeaf (W : Wider S S' N) {n : Name} (hs : (S.get n).isSome = true) (h : ∀ d, S.get n ≠ some (.leaf d)) :
    ∀ d, S'.get n ≠ some (.leaf d) := by
  intro d hd
  obtain ⟨r, hr⟩ := Option.isSome_iff_exists.1 hs
  obtain ⟨r', hr', hw⟩ := W.types _ _ hr
  rw [hd] at hr'
  cases hr'
  cases hw
  exact h d hr

/-- What the content means is defined. -/
def Defined (S : SchemaContext) (c : LeafContent) : Prop := ∀ n, Means S c (.named n) → (S.get n).isSome = true

theorem Wider.means (W : Wider S S' N) {c c' : LeafContent} (h : Means S c c') (hd : Defined S c) : Means S' c c' := by
  induction h with
  | literal t => exact .literal t
  | fixed s => exact .fixed s
  | alias h hc ih => exact .alias (W.leaf h) (ih (fun n hn => hd n (.alias h hn)))
  | @name n h => exact .name (W.notLeaf (hd n (.name h)) h)

theorem Wider.inlined (W : Wider S S' N) {c : LeafContent} (hd : Defined S c) : (inlined S c).Agree (inlined S' c) := by
  intro a b ha hb
  exact (inlined_means hb).functional (W.means (inlined_means ha) hd)

theorem Wider.contentTy (W : Wider S S' N) {c : LeafContent} (hd : Defined S c) : (contentTy x S c).Agree (contentTy x S' c) :=
  (W.inlined hd).bind fun _ _ => .refl _

theorem Wider.contentRead (W : Wider S S' N) {c : LeafContent} (hd : Defined S c) : (contentRead x S c).Agree (contentRead x S' c) :=
  (W.inlined hd).bind fun _ _ => .refl _

theorem Wider.contentWrite (W : Wider S S' N) {c : LeafContent} (hd : Defined S c) : (contentWrite x S c).Agree (contentWrite x S' c) :=
  (W.inlined hd).bind fun _ _ => .refl _

theorem Wider.qname (W : Wider S S' N) (n : Name) : S'.qname n = S.qname n := by
  simp only [SchemaContext.qname, W.namespaces]

theorem Wider.xmlName (W : Wider S S' N) (n : Name) : S'.xmlName n = S.xmlName n := by
  simp only [SchemaContext.xmlName, W.namespaces, W.target, W.qualified]

theorem Wider.schemaNss (W : Wider S S' N) : schemaNss S' = schemaNss S := by
  simp only [Xsd.schemaNss, W.namespaces, W.target, W.qualified]

theorem Wider.leafDecl (W : Wider S S' N) {l : Leaf} (hd : Defined S l.definition.content) : (leafDecl x S l).Agree (leafDecl x S' l) :=
  (Res.Agree.refl _).bind fun _ _ => (W.contentTy hd).bind fun _ _ => .refl _

theorem Wider.leafRead (W : Wider S S' N) {l : Leaf} (hd : Defined S l.definition.content) : (leafRead x S l).Agree (leafRead x S' l) := by
  unfold Xsd.leafRead
  rw [W.qname]
  exact (Res.Agree.refl _).bind fun _ _ => (Res.Agree.refl _).bind fun _ _ => (W.contentRead hd).bind fun _ _ => .refl _

theorem Wider.attrDecl (W : Wider S S' N) {a : Attribute} (hd : Defined S a.content) : (attrDecl x S a).Agree (attrDecl x S' a) :=
  (Res.Agree.refl _).bind fun _ _ => (W.contentTy hd).bind fun _ _ => .refl _

theorem Wider.attrRead (W : Wider S S' N) {a : Attribute} (hd : Defined S a.content) : (attrRead x S a).Agree (attrRead x S' a) := by
  unfold Xsd.attrRead
  refine (Res.Agree.refl _).bind fun _ _ => ?_
  cases h : a.content with
  | literal t => exact .refl _
  | named n => exact (W.contentTy (h ▸ hd)).bind fun _ _ => .refl _
  | fixed s => exact .refl _

theorem Wider.attrWrite (W : Wider S S' N) {a : Attribute} (hd : Defined S a.content) : (attrWrite x S a).Agree (attrWrite x S' a) := by
  unfold Xsd.attrWrite
  rw [W.xmlName]
  refine (Res.Agree.refl _).bind fun _ _ => (Res.Agree.refl _).bind fun _ _ => ?_
  cases h : a.content with
  | literal t => exact .refl _
  | named n => exact (W.contentTy (h ▸ hd)).bind fun _ _ => .refl _
  | fixed s => exact .refl _

theorem Wider.leafWrite (W : Wider S S' N) {l : Leaf} (hd : Defined S l.definition.content) : (leafWrite x S l).Agree (leafWrite x S' l) := by
  intro a b ha hb
  obtain ⟨f, nm, vw, tags, h1, h2, h3, rfl, h5, h6, h7⟩ := leafWrite_ok ha
  obtain ⟨f', nm', vw', tags', h1', h2', h3', rfl, h5', h6', h7'⟩ := leafWrite_ok hb
  rw [h1] at h1'; cases h1'
  rw [W.xmlName, h2] at h2'; cases h2'
  cases W.contentWrite hd _ _ h3 h3'
  suffices tags' = tags by rw [this]
  cases hv : l.isVirtual with
  | true => rw [h5 hv, h5' hv]
  | false =>
    cases hc : l.definition.content with
    | literal t => rw [h6 hv (by simp [hc]), h6' hv (by simp [hc])]
    | fixed t => rw [h6 hv (by simp [hc]), h6' hv (by simp [hc])]
    | named n =>
      obtain ⟨r, hr, h⟩ := h7 hv n hc
      obtain ⟨r', hr', h'⟩ := h7' hv n hc
      rw [hc] at hd h3
      have hm : ∃ c, Means S (.named n) c := by
        rcases contentWrite_ok h3 with ⟨t, hm, _⟩ | ⟨s, hm, _⟩ | ⟨m, i, hm, _⟩
        · exact ⟨_, hm⟩
        · exact ⟨_, hm⟩
        · exact ⟨_, hm⟩
      obtain ⟨c, hm⟩ := hm
      have hm' := W.means hm hd
      have key : (∃ d t, r = some (.leaf d) ∧ d.content = .literal t) ↔ (∃ d t, r' = some (.leaf d) ∧ d.content = .literal t) := by
        have k := resolve_means hm hr
        have k' := resolve_means hm' hr'
        cases c with
        | named m =>
          have e := k.1 m rfl
          have e' := k'.1 m rfl
          constructor
          · rintro ⟨d, t, h1, _⟩; exact absurd (e ▸ h1) (hm.fst_named d)
          · rintro ⟨d, t, h1, _⟩; exact absurd (e' ▸ h1) (hm'.fst_named d)
        | literal t =>
          obtain ⟨d, e, e2⟩ := k.2 (by simp)
          obtain ⟨d', e', e2'⟩ := k'.2 (by simp)
          exact ⟨fun _ => ⟨d', t, e', e2'⟩, fun _ => ⟨d, t, e, e2⟩⟩
        | fixed t =>
          obtain ⟨d, e, e2⟩ := k.2 (by simp)
          obtain ⟨d', e', e2'⟩ := k'.2 (by simp)
          constructor
          · rintro ⟨d1, t1, h1, h2⟩; rw [e] at h1; cases h1; rw [e2] at h2; cases h2
          · rintro ⟨d1, t1, h1, h2⟩; rw [e'] at h1; cases h1; rw [e2'] at h2; cases h2
      rcases h with ⟨h, rfl⟩ | ⟨h, rfl⟩ <;> rcases h' with ⟨h', rfl⟩ | ⟨h', rfl⟩
      · rfl
      · exact absurd (key.1 h) h'
      · exact absurd (key.2 h') h
      · rfl

theorem Wider.leafCheck (W : Wider S S' N) (l : Leaf) : (leafCheck x S l).Agree (leafCheck x S' l) := by
  unfold Xsd.leafCheck
  rw [W.qname]
  exact .refl _

theorem Wider.variantDecl (W : Wider S S' N) {l : Leaf} (hd : Defined S l.definition.content) : (variantDecl x S l).Agree (variantDecl x S' l) :=
  (Res.Agree.refl _).bind fun _ _ => (W.contentTy hd).bind fun _ _ => .refl _

theorem Wider.variantWrite (W : Wider S S' N) {l : Leaf} (hd : Defined S l.definition.content) : (variantWrite x S l).Agree (variantWrite x S' l) :=
  (Res.Agree.refl _).bind fun _ _ => (W.contentWrite hd).bind fun _ _ => .refl _

theorem Wider.variantRead (W : Wider S S' N) {l : Leaf} (hd : Defined S l.definition.content) : (variantRead x S l).Agree (variantRead x S' l) := by
  unfold Xsd.variantRead
  rw [W.qname]
  exact (Res.Agree.refl _).bind fun _ _ => (W.contentRead hd).bind fun _ _ => .refl _

/-! ## What is new -/

theorem leafRead_new {l : Leaf} (h : NewOptional S' N l) {r : Str × LeafRead} (hr : leafRead x S' l = .ok r) : NewLeafRead N r := by
  obtain ⟨⟨hv, q, hq, he⟩, ho⟩ := h
  unfold Xsd.leafRead at hr
  simp only [Res.bind_eq_ok, S'.qname_eq, he, hv, Leaf.isOptional_eq, ho, if_true] at hr
  obtain ⟨f, _, q', h1, v, _, hr⟩ := hr
  cases h1
  simp only [Bool.false_eq_true, if_false] at hr
  by_cases hvec : l.isVec = true
  · rw [if_pos hvec] at hr; cases hr; exact ⟨q, v, hq, .inr rfl⟩
  · rw [if_neg hvec] at hr; cases hr; exact ⟨q, v, hq, .inl rfl⟩

theorem attrRead_new {a : Attribute} (h : NewAttribute N a) {r : AttrRead} (hr : attrRead x S' a = .ok r) : NewAttrRead N r := by
  unfold Xsd.attrRead at hr
  rw [Res.bind_eq_ok] at hr
  obtain ⟨f, _, hr⟩ := hr
  cases hc : a.content with
  | literal t => rw [hc] at hr; cases hr; exact h
  | fixed s => rw [hc] at hr; cases hr; exact h
  | named n =>
    simp only [hc, Res.bind_eq_ok] at hr
    obtain ⟨t, _, v, _, hr⟩ := hr
    cases hr
    exact h

theorem variantRead_new {l : Leaf} (h : NewMember S' N l) {r : Str × VarRead} (hr : variantRead x S' l = .ok r) : NewVarRead N r := by
  obtain ⟨hv, q, hq, he⟩ := h
  unfold Xsd.variantRead at hr
  simp only [Res.bind_eq_ok, S'.qname_eq, he, hv] at hr
  obtain ⟨f, _, v, _, q', h1, hr⟩ := hr
  cases h1
  simp only [Bool.false_eq_true, if_false] at hr
  by_cases hvec : l.isVec = true
  · rw [if_pos hvec] at hr; cases hr; exact ⟨q, v, hq, .inr rfl⟩
  · rw [if_neg hvec] at hr; cases hr; exact ⟨q, v, hq, .inl rfl⟩

theorem leafCheck_new {l : Leaf} (h : NewMember S' N l) {r : Check} (hr : leafCheck x S' l = .ok r) : NewCheck N r := by
  obtain ⟨hv, q, hq, he⟩ := h
  unfold Xsd.leafCheck at hr
  simp only [Res.bind_eq_ok, S'.qname_eq, he, hv, Bool.false_eq_true, if_false] at hr
  obtain ⟨q', h1, hr⟩ := hr
  cases h1
  cases hr
  exact ⟨q, hq, rfl⟩

theorem lookLeaves_inserts {ls ls' : List Leaf} (h : Inserts (NewOptional S' N) ls ls') :
    Inserts (NewOptional S' N) (lookLeaves ls) (lookLeaves ls') := by
  induction h with
  | nil => exact .nil
  | @keep a _ _ _ ih =>
    unfold lookLeaves
    by_cases ha : a.isOptional = true
    · simp only [if_pos ha]; exact .keep ih
    · simp only [if_neg ha]; exact .keep .nil
  | @new b _ bs hb _ ih =>
    have : lookLeaves (b :: bs) = b :: lookLeaves bs := if_pos (by rw [Leaf.isOptional_eq]; exact hb.2)
    rw [this]
    exact .new hb ih

theorem leafWrite_label {l : Leaf} {p : Str × Ty} {w : LeafWrite} (hp : leafDecl x S l = .ok p) (hw : leafWrite x S l = .ok w) :
    p.1 = w.field := by
  obtain ⟨f, nm, vw, tags, h1, _, _, rfl, _⟩ := leafWrite_ok hw
  unfold Xsd.leafDecl at hp
  simp only [Res.bind_eq_ok, h1] at hp
  obtain ⟨f', h2, t, _, hp⟩ := hp
  cases h2; cases hp
  rfl

theorem attrWrite_label {a : Attribute} {p : Str × Ty} {w : AttrWrite} (hp : attrDecl x S a = .ok p) (hw : attrWrite x S a = .ok w) :
    p.1 = w.field := by
  have h := (attrWrite_ok hw).1
  unfold Xsd.attrDecl at hp
  simp only [Res.bind_eq_ok, h] at hp
  obtain ⟨f, h1, t, _, hp⟩ := hp
  cases h1; cases hp
  rfl

theorem leafWrite_optional {l : Leaf} {w : LeafWrite} (hw : leafWrite x S l = .ok w) : w.opt = l.mayMiss := by
  obtain ⟨f, nm, vw, tags, h1, _, _, rfl, _⟩ := leafWrite_ok hw
  rfl

theorem variantWrite_label {l : Leaf} {p : Str × Ty} {w : VarWrite} (hp : variantDecl x S l = .ok p) (hw : variantWrite x S l = .ok w) :
    p.1 = w.variant := by
  unfold Xsd.variantWrite at hw
  unfold Xsd.variantDecl at hp
  simp only [Res.bind_eq_ok] at hp hw
  obtain ⟨f, h1, t, _, hp⟩ := hp
  obtain ⟨f', h1', v, _, hw⟩ := hw
  rw [h1] at h1'; cases h1'
  cases hp; cases hw
  rfl

/-! ## Definitions -/

/-- Both for reading and for writing. -/
def TypeWider (N : Additions) (t t' : TypeDef) : Prop := ReadsWider N t t' ∧ WritesWider t t'

theorem typeWider (W : Wider S S' N) {n : Name} {r r' : Root} {t t' : TypeDef} (hd : ∀ c ∈ r.contents, Defined S c)
    (hn : t'.decl.labels.Nodup) (g : GenOf x S n r t) (g' : GenOf x S' n r' t') (hw : RootWider S' N r r') : TypeWider N t t' := by
  have hident : t'.ident = t.ident := by
    have := g'.ident
    rw [g.ident] at this
    exact (Res.ok.inj this).symm
  have hxml : t'.xmlName = t.xmlName := by
    have := g'.xmlName
    rw [W.xmlName, g.xmlName] at this
    exact (Res.ok.inj this).symm
  have hnss : t'.nss = t.nss := by
    have := g'.nss
    rw [W.schemaNss, g.nss] at this
    exact (Res.ok.inj this).symm
  have hroot : t'.rootName = t.rootName := by
    have := g'.rootName
    rw [← S'.qname_eq, W.qname, S.qname_eq, g.rootName] at this
    exact (Res.ok.inj this).symm
  suffices h : FromWider N t.fromXml t'.fromXml ∧ LookWider N t.look t'.look ∧ ((∃ ds, t.decl = .struct ds) ∨ (∃ ds, t.decl = .choice ds) ∨ t'.decl = t.decl ∨
        ∃ vs vs', t.decl = .enum vs ∧ t'.decl = .enum vs' ∧ EnumWider N vs vs') ∧
      ToWider t.decl.labels t.toXml t'.toXml by
    obtain ⟨h1, h2, h3, h4⟩ := h
    refine ⟨⟨hident, hroot, h1, h2, ?_, ?_⟩, ⟨hxml, hnss, h4⟩⟩
    · intro u o h
      rcases h3 with ⟨ds, h3⟩ | ⟨ds, h3⟩ | h3 | ⟨vs, vs', h3, _⟩
      · rw [h] at h3; cases h3
      · rw [h] at h3; cases h3
      · rw [h3, h]
      · rw [h] at h3; cases h3
    · intro vs h
      rcases h3 with ⟨ds, h3⟩ | ⟨ds, h3⟩ | h3 | ⟨ws, ws', h3, h3', he⟩
      · rw [h] at h3; cases h3
      · rw [h] at h3; cases h3
      · exact ⟨vs, by rw [h3, h], .inl rfl⟩
      · rw [h] at h3; cases h3
        exact ⟨ws', h3', he⟩
  have hrd := g.read; have hrd' := g'.read
  have hlk := g.look; have hlk' := g'.look
  have hdc := g.decl; have hdc' := g'.decl
  have hwr := g.write; have hwr' := g'.write
  cases hw with
  | leaf d =>
    have hd := hd d.content (List.mem_singleton.2 rfl)
    have e1 := (W.contentTy (x := x) hd).bind (fun t _ => Res.Agree.refl (pure (Decl.newtype t (match d.content with | .literal l => some l | _ => none)))) _ _ hdc hdc'
    refine ⟨?_, ?_, .inr (.inr (.inl e1)), ?_⟩
    · have e := (W.contentRead (x := x) hd).bind (fun v _ => Res.Agree.refl (pure (FromBody.leaf v))) _ _ hrd hrd'
      rw [e]
      unfold rootRead at hrd
      rw [Res.bind_eq_ok] at hrd
      obtain ⟨v, _, h⟩ := hrd
      rw [← Res.ok.inj h]
      exact .leaf v
    · rw [← Res.ok.inj hlk, ← Res.ok.inj hlk']; exact .always
    · have e := (W.contentWrite (x := x) hd).bind (fun v _ => Res.Agree.refl (pure (ToBody.leaf v (match d.content with | .named _ => false | _ => true)))) _ _ hwr hwr'
      rw [e]
      unfold rootWrite at hwr
      rw [Res.bind_eq_ok] at hwr
      obtain ⟨v, _, h⟩ := hwr
      rw [← Res.ok.inj h]
      exact .leaf v _
  | enum ns =>
    refine ⟨?_, ?_, .inr (.inr (.inl ?_)), ?_⟩
    · rw [← Res.ok.inj hrd, ← Res.ok.inj hrd']; exact .enumText
    · rw [← Res.ok.inj hlk, ← Res.ok.inj hlk']; exact .always
    · exact (show (rootDecl x S (.enum ns)).Agree (rootDecl x S' (.enum ns)) from .refl _) _ _ hdc hdc'
    · rw [← Res.ok.inj hwr, ← Res.ok.inj hwr']; exact .enumText
  | @values ns ns' hi hdis =>
    refine ⟨?_, ?_, .inr (.inr (.inr ?_)), ?_⟩
    · rw [← Res.ok.inj hrd, ← Res.ok.inj hrd']; exact .enumText
    · rw [← Res.ok.inj hlk, ← Res.ok.inj hlk']; exact .always
    · exact enumWider hi hdis hdc hdc'
    · rw [← Res.ok.inj hwr, ← Res.ok.inj hwr']; exact .enumText
  | @element d d' hc ha hv =>
    have hda : ∀ a ∈ d.attributes, Defined S a.content := fun a h => hd _ (List.mem_append_right _ (List.mem_map.2 ⟨a, h, rfl⟩))
    simp only [rootRead, Res.bind_eq_ok] at hrd hrd'
    obtain ⟨cr, hcr, ar, har, h⟩ := hrd
    obtain ⟨cr', hcr', ar', har', h'⟩ := hrd'
    rw [← Res.ok.inj h, ← Res.ok.inj h']
    simp only [rootWrite, Res.bind_eq_ok] at hwr hwr'
    obtain ⟨aw, haw, cw, hcw, h⟩ := hwr
    obtain ⟨aw', haw', cw', hcw', h'⟩ := hwr'
    rw [← Res.ok.inj h, ← Res.ok.inj h']
    simp only [rootDecl, Res.bind_eq_ok] at hdc hdc'
    obtain ⟨cd, hcd, ad, had, h⟩ := hdc
    obtain ⟨cd', hcd', ad', had', h'⟩ := hdc'
    rw [← Res.ok.inj h'] at hn
    rw [← Res.ok.inj h]
    simp only [Decl.labels, List.map_append] at hn ⊢
    have hlab : ad.map Prod.fst = aw.map AttrWrite.field := mapRes_labels (fun _ _ _ => attrWrite_label) had haw
    have hlab' : ad'.map Prod.fst = aw'.map AttrWrite.field := mapRes_labels (fun _ _ _ => attrWrite_label) had' haw'
    rw [List.nodup_append] at hn
    obtain ⟨hn1, hn2, hn3⟩ := hn
    have haws := ha.mapRes (q := fun w => w.optional = true) (fun a h => W.attrWrite (hda a h))
      (fun b r hb hr => by rw [(attrWrite_ok hr).2.2.1]; exact hb.1) haw haw'
    have hatt : ∀ f ∈ ad.map Prod.fst, f ∈ ad'.map Prod.fst := by rw [hlab, hlab']; exact haws.map _
    have hnew := (haws.fresh AttrWrite.field (by rw [← hlab']; exact hn2))
    -- the content
    have key : ContentReadWider N cr cr' ∧ LookWider N t.look t'.look ∧ ContentWriteWider (cd.map Prod.fst ++ ad.map Prod.fst) cw cw' ∧
        isNamedLeaf d'.content = isNamedLeaf d.content ∧ ∀ f ∈ cd.map Prod.fst, f ∈ cd'.map Prod.fst := by
      have hdl : ∀ {ls : List Leaf}, d.content = some (.leaves ls) → ∀ l ∈ ls, Defined S l.definition.content := by
        intro ls h l hl
        refine hd _ (List.mem_append_left _ ?_)
        rw [h]
        exact List.mem_map.2 ⟨l, hl, rfl⟩
      have leaves : ∀ {ls ls' : List Leaf} {crl crl' : List (Str × LeafRead)} {cwl cwl' : List LeafWrite},
          (∀ l ∈ ls, Defined S l.definition.content) → Inserts (NewOptional S' N) ls ls' →
          mapRes (Xsd.leafRead x S) ls = .ok crl → mapRes (Xsd.leafRead x S') ls' = .ok crl' →
          mapRes (Xsd.leafWrite x S) ls = .ok cwl → mapRes (Xsd.leafWrite x S') ls' = .ok cwl' →
          mapRes (Xsd.leafDecl x S) ls = .ok cd → mapRes (Xsd.leafDecl x S') ls' = .ok cd' →
          Inserts (NewLeafRead N) crl crl' ∧ Inserts (NewLeafWrite (cd.map Prod.fst ++ ad.map Prod.fst)) cwl cwl' ∧
            ∀ f ∈ cd.map Prod.fst, f ∈ cd'.map Prod.fst := by
        intro ls ls' crl crl' cwl cwl' hdl hi h1 h1' h2 h2' h3 h3'
        have l1 : cd.map Prod.fst = cwl.map LeafWrite.field := mapRes_labels (fun _ _ _ => leafWrite_label) h3 h2
        have l1' : cd'.map Prod.fst = cwl'.map LeafWrite.field := mapRes_labels (fun _ _ _ => leafWrite_label) h3' h2'
        have i1 := hi.mapRes (q := fun w => w.opt = true) (fun l h => W.leafWrite (hdl l h))
          (fun b r hb hr => by rw [leafWrite_optional hr]; exact hb.2) h2 h2'
        refine ⟨hi.mapRes (fun l h => W.leafRead (hdl l h)) (fun b r hb hr => leafRead_new hb hr) h1 h1', ?_, ?_⟩
        · refine (i1.fresh LeafWrite.field (by rw [← l1']; exact hn1)).mono ?_
          rintro b ⟨b1, b2, b3⟩
          refine ⟨b1, ?_⟩
          intro hm
          rcases List.mem_append.1 hm with hm | hm
          · rw [l1] at hm; exact b3 hm
          · exact hn3 _ (by rw [l1']; exact List.mem_map.2 ⟨b, b2, rfl⟩) _ (hatt _ hm) rfl
        · rw [l1, l1']; exact i1.map _
      have hds : ∀ {n : Name} {ld : LeafDef}, d.content = some (.leaf n ld) → Defined S ld.content := by
        intro n ld h
        refine hd _ (List.mem_append_left _ ?_)
        rw [h]
        exact List.mem_singleton.2 rfl
      have look : ∀ {ls ls' : List Leaf} {lk lk' : List Check}, Inserts (NewOptional S' N) ls ls' →
          mapRes (Xsd.leafCheck x S) (lookLeaves ls) = .ok lk → mapRes (Xsd.leafCheck x S') (lookLeaves ls') = .ok lk' →
          Inserts (NewCheck N) lk lk' := by
        intro ls ls' lk lk' hi h h'
        exact (lookLeaves_inserts hi).mapRes (fun l _ => W.leafCheck l) (fun b r hb hr => leafCheck_new hb.1 hr) h h'
      simp only [rootLook] at hlk hlk'
      generalize d.content = c at hcr hcw hcd hlk hc hdl hds
      generalize d'.content = c' at hcr' hcw' hcd' hlk' hc
      have many : ∀ {ls ls' : List Leaf}, c = some (.leaves ls) → c' = some (.leaves ls') → Inserts (NewOptional S' N) ls ls' →
          ContentReadWider N cr cr' ∧ LookWider N t.look t'.look ∧ ContentWriteWider (cd.map Prod.fst ++ ad.map Prod.fst) cw cw' ∧
            isNamedLeaf c' = isNamedLeaf c ∧ ∀ f ∈ cd.map Prod.fst, f ∈ cd'.map Prod.fst := by
        rintro ls ls' rfl rfl hi
        simp only [elementContentRead, elementContentWrite, Res.bind_eq_ok] at hcr hcr' hcw hcw' hlk hlk'
        obtain ⟨crl, h1, e1⟩ := hcr
        obtain ⟨crl', h1', e1'⟩ := hcr'
        obtain ⟨cwl, h2, e2⟩ := hcw
        obtain ⟨cwl', h2', e2'⟩ := hcw'
        obtain ⟨lk, h3, e3⟩ := hlk
        obtain ⟨lk', h3', e3'⟩ := hlk'
        rw [← Res.ok.inj e1, ← Res.ok.inj e1', ← Res.ok.inj e2, ← Res.ok.inj e2', ← Res.ok.inj e3, ← Res.ok.inj e3']
        obtain ⟨k1, k2, k3⟩ := leaves (hdl rfl) hi h1 h1' h2 h2' hcd hcd'
        exact ⟨.more k1, .checks (look hi h3 h3'), .more k2, rfl, k3⟩
      cases hc with
      | more hi => exact many rfl rfl hi
      | first hi =>
        simp only [elementContentRead, elementContentWrite, Res.bind_eq_ok] at hcr hcr' hcw hcw' hlk hlk'
        obtain ⟨crl', h1', e1'⟩ := hcr'
        obtain ⟨cwl', h2', e2'⟩ := hcw'
        obtain ⟨lk', h3', e3'⟩ := hlk'
        cases hcd
        rw [← Res.ok.inj hcr, ← Res.ok.inj e1', ← Res.ok.inj hcw, ← Res.ok.inj e2', ← Res.ok.inj hlk, ← Res.ok.inj e3']
        obtain ⟨k1, k2, k3⟩ := leaves (ls := []) (fun _ h => absurd h List.not_mem_nil) hi rfl h1' rfl h2' rfl hcd'
        exact ⟨.first k1, .checks (look hi rfl h3'), .first k2, rfl, k3⟩
      | same c =>
        cases c with
        | none =>
          cases hcd; cases hcd'
          rw [← Res.ok.inj hcr, ← Res.ok.inj hcr', ← Res.ok.inj hcw, ← Res.ok.inj hcw', ← Res.ok.inj hlk, ← Res.ok.inj hlk']
          exact ⟨.same _, .checks .nil, .same _, rfl, fun _ h => h⟩
        | some c =>
          cases c with
          | leaves ls => exact many rfl rfl (.refl ls)
          | leaf m ld =>
            have hdd := hds rfl
            have e1 : cr' = cr := (show (elementContentRead x S (some (.leaf m ld))).Agree (elementContentRead x S' (some (.leaf m ld))) from
              (Res.Agree.refl _).bind fun _ _ => (W.contentRead hdd).bind fun _ _ => .refl _) _ _ hcr hcr'
            have e2 : cw' = cw := (show (elementContentWrite x S (some (.leaf m ld))).Agree (elementContentWrite x S' (some (.leaf m ld))) from
              (Res.Agree.refl _).bind fun _ _ => (W.contentWrite hdd).bind fun _ _ => .refl _) _ _ hcw hcw'
            have e3 : cd' = cd := (show (contentDecl x S (some (.leaf m ld))).Agree (contentDecl x S' (some (.leaf m ld))) from
              (Res.Agree.refl _).bind fun _ _ => (W.contentTy hdd).bind fun _ _ => .refl _) _ _ hcd hcd'
            rw [e1, e2, e3, ← Res.ok.inj hlk, ← Res.ok.inj hlk']
            exact ⟨.same _, .checks .nil, .same _, rfl, fun _ h => h⟩
    obtain ⟨k1, k2, k3, k4, k5⟩ := key
    refine ⟨.element k1 (ha.mapRes (fun a h => W.attrRead (hda a h)) (fun b r hb hr => attrRead_new hb hr) har har'), k2, .inl ⟨_, rfl⟩, ?_⟩
    rw [hv, k4]
    refine .element (hnew.mono ?_) k3
    rintro b ⟨b1, b2, b3⟩
    refine ⟨b1, ?_⟩
    intro hm
    rcases List.mem_append.1 hm with hm | hm
    · exact hn3 _ (k5 _ hm) _ (by rw [hlab']; exact List.mem_map.2 ⟨b, b2, rfl⟩) rfl
    · rw [hlab] at hm; exact b3 hm
  | @choice vs vs' b docs docs' hi =>
    have hdv : ∀ l ∈ vs, Defined S l.definition.content := fun l h => hd _ (List.mem_map.2 ⟨l, h, rfl⟩)
    simp only [rootRead, Res.bind_eq_ok] at hrd hrd'
    obtain ⟨cr, hcr, h⟩ := hrd
    obtain ⟨cr', hcr', h'⟩ := hrd'
    rw [← Res.ok.inj h, ← Res.ok.inj h']
    simp only [rootWrite, Res.bind_eq_ok] at hwr hwr'
    obtain ⟨cw, hcw, h⟩ := hwr
    obtain ⟨cw', hcw', h'⟩ := hwr'
    rw [← Res.ok.inj h, ← Res.ok.inj h']
    simp only [rootLook, Res.bind_eq_ok] at hlk hlk'
    obtain ⟨cl, hcl, h⟩ := hlk
    obtain ⟨cl', hcl', h'⟩ := hlk'
    rw [← Res.ok.inj h, ← Res.ok.inj h']
    simp only [rootDecl, Res.bind_eq_ok] at hdc hdc'
    obtain ⟨cd, hcd, h⟩ := hdc
    obtain ⟨cd', hcd', h'⟩ := hdc'
    rw [← Res.ok.inj h'] at hn
    rw [← Res.ok.inj h]
    simp only [Decl.labels] at hn ⊢
    have l1 : cd.map Prod.fst = cw.map VarWrite.variant := mapRes_labels (fun _ _ _ => variantWrite_label) hcd hcw
    have l1' : cd'.map Prod.fst = cw'.map VarWrite.variant := mapRes_labels (fun _ _ _ => variantWrite_label) hcd' hcw'
    refine ⟨.choice (hi.mapRes (fun l h => W.variantRead (hdv l h)) (fun b r hb hr => variantRead_new hb hr) hcr hcr'),
      .checks (hi.mapRes (fun l _ => W.leafCheck l) (fun b r hb hr => leafCheck_new hb hr) hcl hcl'), .inr (.inl ⟨_, rfl⟩), .choice ?_⟩
    refine ((hi.mapRes (q := fun _ => True) (fun l h => W.variantWrite (hdv l h)) (fun _ _ _ _ => trivial) hcw hcw').fresh VarWrite.variant
      (by rw [← l1']; exact hn)).mono ?_
    rintro b ⟨_, _, b3⟩
    rw [l1]
    exact b3

theorem moduleWider (W : Wider S S' N) (G : Generated x S P) (G' : Generated x S' P') (H' : Compiles x P') :
    ∀ i t, findType P i = some t → ∃ t', findType P' i = some t' ∧ TypeWider N t t' := by
  intro i t hf
  obtain ⟨ht, hi⟩ := findType_mem hf
  obtain ⟨n, hn, hg⟩ := (mapRes_ok G.gen).2 t ht
  obtain ⟨r, hr, g⟩ := generateElement_ok hg
  obtain ⟨r', hr', hw⟩ := W.types n r hr
  obtain ⟨t', ht', hf', g'⟩ := G'.find hr'
  have T := typeWider W (fun c hc m hm => G.closedAt hr hc hm) (H'.typed t' ht').distinct g g' hw
  refine ⟨t', ?_, T⟩
  rw [← hi, ← T.1.ident]
  exact hf'

end Xsd
