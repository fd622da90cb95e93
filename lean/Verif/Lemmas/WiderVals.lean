import Verif.Lemmas.WiderGen
/-!
# Values of the types of a wider schema
-/
namespace Xsd
variable {x : Ext} {S S' : SchemaContext} {P P' : List TypeDef} {N : Additions}

/-- A declaration with additional optional fields or additional variants. -/
inductive DeclWider : Decl → Decl → Prop where
  | same (d : Decl) (h : (∃ t o, d = .newtype t o) ∨ ∃ vs, d = .enum vs) : DeclWider d d
  | values {vs vs' : List (Str × Str)} (h : ∀ s ∈ vs.map Prod.snd, s ∈ vs'.map Prod.snd) (hd : (vs'.map Prod.snd).Nodup) : DeclWider (.enum vs) (.enum vs')
  | struct {ds ds' : List (Str × Ty)} (h : Inserts (fun p => ∃ t, p.2 = .option t) ds ds') : DeclWider (.struct ds) (.struct ds')
  | choice {ds ds' : List (Str × Ty)} (h : Inserts (fun _ => True) ds ds') : DeclWider (.choice ds) (.choice ds')

theorem Inserts.append {α : Type} {p : α → Prop} {as bs cs ds : List α} (h : Inserts p as bs) (h' : Inserts p cs ds) :
    Inserts p (as ++ cs) (bs ++ ds) := by
  induction h with
  | nil => exact h'
  | keep _ ih => exact .keep ih
  | new hb _ ih => exact .new hb ih

theorem leafDecl_new {l : Leaf} (h : l.mayMiss = true) {p : Str × Ty} (hp : leafDecl x S' l = .ok p) : ∃ t, p.2 = .option t := by
  unfold Xsd.leafDecl at hp
  simp only [Res.bind_eq_ok, Leaf.isOptional_eq, h, if_true] at hp
  obtain ⟨f, _, t, _, hp⟩ := hp
  cases hp
  exact ⟨_, rfl⟩

theorem attrDecl_new {a : Attribute} (h : a.isOptional = true) {p : Str × Ty} (hp : attrDecl x S' a = .ok p) : ∃ t, p.2 = .option t := by
  unfold Xsd.attrDecl at hp
  simp only [Res.bind_eq_ok, h, if_true] at hp
  obtain ⟨f, _, t, _, hp⟩ := hp
  cases hp
  exact ⟨_, rfl⟩

theorem declWider (W : Wider S S' N) {r r' : Root} {d d' : Decl} (hd : ∀ c ∈ r.contents, Defined S c) (h : rootDecl x S r = .ok d)
    (h' : rootDecl x S' r' = .ok d') (hw : RootWider S' N r r') : DeclWider d d' := by
  cases hw with
  | leaf e =>
    have hd := hd e.content (List.mem_singleton.2 rfl)
    cases (W.contentTy (x := x) hd).bind (fun t _ => Res.Agree.refl (pure (Decl.newtype t (match e.content with | .literal l => some l | _ => none)))) _ _ h h'
    unfold rootDecl at h
    rw [Res.bind_eq_ok] at h
    obtain ⟨t, _, h⟩ := h
    exact .same _ (.inl ⟨_, _, (Res.ok.inj h).symm⟩)
  | enum ns =>
    cases (show (rootDecl x S (.enum ns)).Agree (rootDecl x S' (.enum ns)) from .refl _) _ _ h h'
    simp only [rootDecl, Res.bind_eq_ok] at h
    obtain ⟨m, _, vs, _, h⟩ := h
    exact .same _ (.inr ⟨_, (Res.ok.inj h).symm⟩)
  | values hi hdis =>
    obtain ⟨vs, vs', rfl, rfl, he⟩ := enumWider hi hdis h h'
    rcases he with rfl | ⟨h1, _, h3⟩
    · exact .same _ (.inr ⟨_, rfl⟩)
    · exact .values h1 h3
  | @element e e' hc ha hv =>
    have hda : ∀ a ∈ e.attributes, Defined S a.content := fun a h => hd _ (List.mem_append_right _ (List.mem_map.2 ⟨a, h, rfl⟩))
    simp only [rootDecl, Res.bind_eq_ok] at h h'
    obtain ⟨cd, hcd, ad, had, h⟩ := h
    obtain ⟨cd', hcd', ad', had', h'⟩ := h'
    rw [← Res.ok.inj h, ← Res.ok.inj h']
    refine .struct (Inserts.append ?_ (ha.mapRes (fun a h => W.attrDecl (hda a h)) (fun b r hb hr => attrDecl_new hb.1 hr) had had'))
    have hdl : ∀ {ls : List Leaf}, e.content = some (.leaves ls) → ∀ l ∈ ls, Defined S l.definition.content := by
      intro ls h l hl
      refine hd _ (List.mem_append_left _ ?_)
      rw [h]
      exact List.mem_map.2 ⟨l, hl, rfl⟩
    have hds : ∀ {n : Name} {ld : LeafDef}, e.content = some (.leaf n ld) → Defined S ld.content := by
      intro n ld h
      refine hd _ (List.mem_append_left _ ?_)
      rw [h]
      exact List.mem_singleton.2 rfl
    have leaves : ∀ {ls ls' : List Leaf}, (∀ l ∈ ls, Defined S l.definition.content) → Inserts (NewOptional S' N) ls ls' →
        mapRes (Xsd.leafDecl x S) ls = .ok cd → mapRes (Xsd.leafDecl x S') ls' = .ok cd' →
        Inserts (fun p => ∃ t, p.2 = .option t) cd cd' := by
      intro ls ls' hdl hi h h'
      exact hi.mapRes (fun l h => W.leafDecl (hdl l h)) (fun b r hb hr => leafDecl_new hb.2 hr) h h'
    generalize e.content = c at hcd hc hdl hds
    generalize e'.content = c' at hcd' hc
    cases hc with
    | more hi => exact leaves (hdl rfl) hi hcd hcd'
    | first hi => exact leaves (ls := []) (fun _ h => absurd h List.not_mem_nil) hi hcd hcd'
    | same c =>
      cases c with
      | none => cases hcd; cases hcd'; exact .nil
      | some c =>
        cases c with
        | leaves ls => exact leaves (hdl rfl) (.refl ls) hcd hcd'
        | leaf m ld =>
          have e3 : cd' = cd := (show (contentDecl x S (some (.leaf m ld))).Agree (contentDecl x S' (some (.leaf m ld))) from
            (Res.Agree.refl _).bind fun _ _ => (W.contentTy (hds rfl)).bind fun _ _ => .refl _) _ _ hcd hcd'
          rw [e3]
          exact .refl cd
  | @choice vs vs' b docs docs' hi =>
    have hdv : ∀ l ∈ vs, Defined S l.definition.content := fun l h => hd _ (List.mem_map.2 ⟨l, h, rfl⟩)
    simp only [rootDecl, Res.bind_eq_ok] at h h'
    obtain ⟨cd, hcd, h⟩ := h
    obtain ⟨cd', hcd', h'⟩ := h'
    rw [← Res.ok.inj h, ← Res.ok.inj h']
    exact .choice (hi.mapRes (fun l h => W.variantDecl (hdv l h)) (fun _ _ _ _ => trivial) hcd hcd')

/-- Every type has become a wider one. -/
def ModuleDeclsWider (P P' : List TypeDef) : Prop :=
  ∀ i t, findType P i = some t → ∃ t', findType P' i = some t' ∧ DeclWider t.decl t'.decl

theorem moduleDeclsWider (W : Wider S S' N) (G : Generated x S P) (G' : Generated x S' P') : ModuleDeclsWider P P' := by
  intro i t hf
  obtain ⟨ht, hi⟩ := findType_mem hf
  obtain ⟨n, hn, hg⟩ := (mapRes_ok G.gen).2 t ht
  obtain ⟨r, hr, g⟩ := generateElement_ok hg
  obtain ⟨r', hr', hw⟩ := W.types n r hr
  obtain ⟨t', ht', hf', g'⟩ := G'.find hr'
  refine ⟨t', ?_, declWider W (fun c hc m hm => G.closedAt hr hc hm) g.decl g'.decl hw⟩
  have := g'.ident
  rw [g.ident] at this
  rw [← hi, Res.ok.inj this]
  exact hf'

theorem UpgradeFields.cons_inserts {f : Str} {t : Ty} {v v' : Val} {ds : List (Str × Ty)} {fs : List (Str × Val)} (hv : Upgrade P P' t v v')
    (h : ∀ ds', Inserts (fun p => ∃ t, p.2 = .option t) ds ds' → ∃ fs', UpgradeFields P P' ds ds' fs fs') :
    ∀ ds', Inserts (fun p => ∃ t, p.2 = .option t) ((f, t) :: ds) ds' → ∃ fs', UpgradeFields P P' ((f, t) :: ds) ds' ((f, v) :: fs) fs' := by
  intro ds'
  induction ds' with
  | nil => intro hi; cases hi
  | cons d ds' ih =>
    intro hi
    cases hi with
    | keep hi => obtain ⟨fs', hf⟩ := h ds' hi; exact ⟨_, .keep hv hf⟩
    | new hb hi =>
      obtain ⟨g, u⟩ := d
      obtain ⟨u', rfl⟩ := hb
      obtain ⟨fs', hf⟩ := ih hi
      exact ⟨_, .new hf⟩

theorem UpgradeFields.nil_inserts : ∀ ds', Inserts (fun p : Str × Ty => ∃ t, p.2 = .option t) [] ds' → ∃ fs', UpgradeFields P P' [] ds' [] fs' := by
  intro ds'
  induction ds' with
  | nil => intro _; exact ⟨_, .nil⟩
  | cons d ds' ih =>
    intro hi
    cases hi with
    | new hb hi =>
      obtain ⟨g, u⟩ := d
      obtain ⟨u', rfl⟩ := hb
      obtain ⟨fs', hf⟩ := ih hi
      exact ⟨_, .new hf⟩

theorem UpgradeAll.exists {t : Ty} : ∀ {vs : List Val}, (∀ v ∈ vs, ∃ v', Upgrade P P' t v v') → ∃ vs', UpgradeAll P P' t vs vs'
  | [], _ => ⟨_, .nil⟩
  | v :: vs, h => by
    obtain ⟨v', hv⟩ := h v (List.mem_cons_self ..)
    obtain ⟨vs', hs⟩ := UpgradeAll.exists (fun v hv => h v (List.mem_cons_of_mem _ hv))
    exact ⟨_, .cons hv hs⟩

mutual
/-- Every value has a counterpart. -/
theorem HasTy.upgrade (D : ModuleDeclsWider P P') {ty : Ty} {v : Val} : HasTy P ty v → ∃ v', Upgrade P P' ty v v'
  | .prim h => ⟨_, .prim h⟩
  | .unit => ⟨_, .unit⟩
  | .none => ⟨_, .none⟩
  | .some h => let ⟨_, h'⟩ := h.upgrade D; ⟨_, .some h'⟩
  | .vec h => let ⟨_, h'⟩ := UpgradeAll.exists (fun v hv => (h v hv).upgrade D); ⟨_, .vec h'⟩
  | .named hf h =>
    let ⟨_, hf', hd⟩ := D _ _ hf
    let ⟨_, h'⟩ := h.upgrade D hd
    ⟨_, .named hf hf' h'⟩
theorem HasDecl.upgrade (D : ModuleDeclsWider P P') {d d' : Decl} {v : Val} (hd : DeclWider d d') : HasDecl P d v → ∃ v', UpgradeDecl P P' d d' v v'
  | .newtype h => by
    cases hd with
    | same _ _ => obtain ⟨_, h'⟩ := h.upgrade D; exact ⟨_, .newtype h'⟩
  | .enum h => by
    cases hd with
    | same _ _ => exact ⟨_, .enum h⟩
    | values h1 h3 =>
      obtain ⟨⟨n, s⟩, hm, rfl⟩ := List.mem_map.1 h
      obtain ⟨⟨n', s'⟩, hm', hs⟩ := List.mem_map.1 (h1 s (List.mem_map.2 ⟨_, hm, rfl⟩))
      obtain rfl : s' = s := hs
      exact ⟨_, .values hm hm' fun m hq => snd_unique h3 hm' hq⟩
  | .struct h => by
    cases hd with
    | same _ h => rcases h with ⟨_, _, h⟩ | ⟨_, h⟩ <;> cases h
    | struct hi => obtain ⟨_, h'⟩ := h.upgrade D _ hi; exact ⟨_, .struct h'⟩
  | .choice hm h => by
    cases hd with
    | same _ h => rcases h with ⟨_, _, h⟩ | ⟨_, h⟩ <;> cases h
    | choice hi => obtain ⟨_, h'⟩ := h.upgrade D; exact ⟨_, .choice hm (hi.mem hm) h'⟩
theorem HasFields.upgrade (D : ModuleDeclsWider P P') {ds : List (Str × Ty)} {fs : List (Str × Val)} :
    HasFields P ds fs → ∀ ds', Inserts (fun p => ∃ t, p.2 = .option t) ds ds' → ∃ fs', UpgradeFields P P' ds ds' fs fs'
  | .nil => UpgradeFields.nil_inserts
  | .cons h hs => by
    obtain ⟨_, hv⟩ := h.upgrade D
    exact UpgradeFields.cons_inserts hv (hs.upgrade D)
end

mutual
/-- Counterparts have the types. -/
theorem Upgrade.typed {ty : Ty} {v v' : Val} : Upgrade P P' ty v v' → HasTy P ty v ∧ HasTy P' ty v'
  | .prim h => ⟨.prim h, .prim h⟩
  | .unit => ⟨.unit, .unit⟩
  | .none => ⟨.none, .none⟩
  | .some h => ⟨.some h.typed.1, .some h.typed.2⟩
  | .vec h => ⟨.vec h.typed.1, .vec h.typed.2⟩
  | .named hf hf' h => ⟨.named hf h.typed.1, .named hf' h.typed.2⟩
theorem UpgradeAll.typed {ty : Ty} {vs vs' : List Val} : UpgradeAll P P' ty vs vs' → (∀ v ∈ vs, HasTy P ty v) ∧ ∀ v ∈ vs', HasTy P' ty v
  | .nil => ⟨fun _ h => absurd h List.not_mem_nil, fun _ h => absurd h List.not_mem_nil⟩
  | .cons h hs => by
    have h1 := h.typed
    have h2 := hs.typed
    exact ⟨List.forall_mem_cons.2 ⟨h1.1, h2.1⟩, List.forall_mem_cons.2 ⟨h1.2, h2.2⟩⟩
theorem UpgradeDecl.typed {d d' : Decl} {v v' : Val} : UpgradeDecl P P' d d' v v' → HasDecl P d v ∧ HasDecl P' d' v'
  | .newtype h => ⟨.newtype h.typed.1, .newtype h.typed.2⟩
  | .enum h => ⟨.enum h, .enum h⟩
  | .values h h' _ => ⟨.enum (List.mem_map.2 ⟨_, h, rfl⟩), .enum (List.mem_map.2 ⟨_, h', rfl⟩)⟩
  | .struct h => ⟨.struct h.typed.1, .struct h.typed.2⟩
  | .choice hm hm' h => ⟨.choice hm h.typed.1, .choice hm' h.typed.2⟩
theorem UpgradeFields.typed {ds ds' : List (Str × Ty)} {fs fs' : List (Str × Val)} : UpgradeFields P P' ds ds' fs fs' → HasFields P ds fs ∧ HasFields P' ds' fs'
  | .nil => ⟨.nil, .nil⟩
  | .keep h hs => ⟨.cons h.typed.1 hs.typed.1, .cons h.typed.2 hs.typed.2⟩
  | .new hs => ⟨hs.typed.1, .cons .none hs.typed.2⟩
end

mutual
/-- There is only one counterpart. -/
theorem Upgrade.unique (H : Compiles x P) (H' : Compiles x P') {ty : Ty} {v v1 v2 : Val} : Upgrade P P' ty v v1 → Upgrade P P' ty v v2 → v1 = v2
  | .prim _, h2 => by cases h2; rfl
  | .unit, h2 => by cases h2; rfl
  | .none, h2 => by cases h2; rfl
  | .some h, h2 => by cases h2 with | some h' => rw [h.unique H H' h']
  | .vec h, h2 => by cases h2 with | vec h' => rw [h.unique H H' h']
  | .named hf hf' h, h2 => by
    cases h2 with
    | named gf gf' h' =>
      rw [hf] at gf; cases gf
      rw [hf'] at gf'; cases gf'
      exact h.unique H H' (H.typed _ (findType_mem hf).1).distinct (H'.typed _ (findType_mem hf').1).distinct h'
termination_by structural h => h
theorem UpgradeAll.unique (H : Compiles x P) (H' : Compiles x P') {ty : Ty} {vs vs1 vs2 : List Val} :
    UpgradeAll P P' ty vs vs1 → UpgradeAll P P' ty vs vs2 → vs1 = vs2
  | .nil, h2 => by cases h2; rfl
  | .cons h hs, h2 => by cases h2 with | cons h' hs' => rw [h.unique H H' h', hs.unique H H' hs']
termination_by structural h => h
theorem UpgradeDecl.unique (H : Compiles x P) (H' : Compiles x P') {d d' : Decl} {v v1 v2 : Val} :
    UpgradeDecl P P' d d' v v1 → d.labels.Nodup → d'.labels.Nodup → UpgradeDecl P P' d d' v v2 → v1 = v2
  | .newtype h, _, _, h2 => by cases h2 with | newtype h' => rw [h.unique H H' h']
  | .enum _, _, _, h2 => by
    cases h2 with
    | enum _ => rfl
    | values h _ hu => rw [hu _ h]
  | .values h h' hu, hn, _, h2 => by
    cases h2 with
    | enum _ => rw [hu _ h]
    | values g g' gu =>
      cases nodup_fst_unique hn h g
      rw [hu _ g']
  | .struct h, _, hn, h2 => by cases h2 with | struct h' => rw [h.unique H H' hn h']
  | .choice hm _ h, hn, _, h2 => by
    cases h2 with
    | choice gm _ h' =>
      cases nodup_fst_unique hn hm gm
      rw [h.unique H H' h']
termination_by structural h => h
theorem UpgradeFields.unique (H : Compiles x P) (H' : Compiles x P') {ds ds' : List (Str × Ty)} {fs fs1 fs2 : List (Str × Val)} :
    UpgradeFields P P' ds ds' fs fs1 → (ds'.map Prod.fst).Nodup → UpgradeFields P P' ds ds' fs fs2 → fs1 = fs2
  | .nil, _, h2 => by cases h2; rfl
  | .keep h hs, hn, h2 => by
    simp only [List.map_cons, List.nodup_cons] at hn
    cases h2 with
    | keep h' hs' => rw [h.unique H H' h', hs.unique H H' hn.2 hs']
    | new hs' => exact absurd (hs'.labels (List.mem_cons_self ..)) hn.1
  | .new hs, hn, h2 => by
    simp only [List.map_cons, List.nodup_cons] at hn
    cases h2 with
    | keep h' hs' => exact absurd (hs.labels (List.mem_cons_self ..)) hn.1
    | new hs' => rw [hs.unique H H' hn.2 hs']
termination_by structural h => h
end

end Xsd
