import Verif.Lemmas.WiderRead
/-!
# Writing with a module for a wider schema
-/
namespace Xsd
variable {x : Ext} {P P' : List TypeDef}

/-! ## Templates -/

/-- Writing an added member of a record with the fields `fs`. -/
def NewLeafWrite (fs : List Str) (l : LeafWrite) : Prop := l.opt = true ∧ l.field ∉ fs

/-- Writing an added attribute. -/
def NewAttrWrite (fs : List Str) (a : AttrWrite) : Prop := a.optional = true ∧ a.field ∉ fs

/-- Writing an added alternative. -/
def NewVarWrite (fs : List Str) (a : VarWrite) : Prop := a.variant ∉ fs

inductive ContentWriteWider (fs : List Str) : ContentWrite → ContentWrite → Prop where
  | same (c : ContentWrite) : ContentWriteWider fs c c
  | first {ls : List LeafWrite} (h : Inserts (NewLeafWrite fs) [] ls) : ContentWriteWider fs .nothing (.leaves ls)
  | more {ls ls' : List LeafWrite} (h : Inserts (NewLeafWrite fs) ls ls') : ContentWriteWider fs (.leaves ls) (.leaves ls')

inductive ToWider (fs : List Str) : ToBody → ToBody → Prop where
  | leaf (v : ValWrite) (b : Bool) : ToWider fs (.leaf v b) (.leaf v b)
  | enumText : ToWider fs .enumText .enumText
  | element {as as' : List AttrWrite} {b : Bool} {c c' : ContentWrite} (ha : Inserts (NewAttrWrite fs) as as')
      (hc : ContentWriteWider fs c c') : ToWider fs (.element as b c) (.element as' b c')
  | choice {vs vs' : List VarWrite} {b : Bool} (h : Inserts (NewVarWrite fs) vs vs') : ToWider fs (.choice vs b) (.choice vs' b)

/-- What a writer needs of two modules. -/
structure WritesWider (t t' : TypeDef) : Prop where
  xmlName : t'.xmlName = t.xmlName
  nss : t'.nss = t.nss
  write : ToWider t.decl.labels t.toXml t'.toXml

/-- Every type has become a wider one. -/
def ModuleWritesWider (P P' : List TypeDef) : Prop :=
  ∀ i t, findType P i = some t → ∃ t', findType P' i = some t' ∧ WritesWider t t'

theorem Inserts.refl {α : Type} {p : α → Prop} : ∀ as : List α, Inserts p as as
  | [] => .nil
  | _ :: as => .keep (Inserts.refl as)

theorem Inserts.mem {α : Type} {p : α → Prop} {as bs : List α} (h : Inserts p as bs) {a : α} (ha : a ∈ as) : a ∈ bs := by
  induction h with
  | nil => exact ha
  | keep _ ih =>
    rcases List.mem_cons.1 ha with rfl | ha
    · exact List.mem_cons_self ..
    · exact List.mem_cons_of_mem _ (ih ha)
  | new _ _ ih => exact List.mem_cons_of_mem _ (ih ha)

theorem Upgrade.prim_eq {p : Prim} {v v' : Val} (h : Upgrade P P' (.prim p) v v') : v' = v := by cases h; rfl

theorem UpgradeFields.labels {ds ds' : List (Str × Ty)} {fs fs' : List (Str × Val)} (h : UpgradeFields P P' ds ds' fs fs') {f : Str}
    (hf : f ∈ ds.map Prod.fst) : f ∈ ds'.map Prod.fst := by
  induction ds' generalizing ds fs fs' with
  | nil => cases h; exact hf
  | cons d ds' ih =>
    cases h with
    | keep h hs =>
      rcases List.mem_cons.1 hf with rfl | hf
      · exact List.mem_cons_self ..
      · exact List.mem_cons_of_mem _ (ih hs hf)
    | new hs => exact List.mem_cons_of_mem _ (ih hs hf)

theorem UpgradeFields.lookup {ds ds' : List (Str × Ty)} {fs fs' : List (Str × Val)} (h : UpgradeFields P P' ds ds' fs fs')
    (hn : (ds'.map Prod.fst).Nodup) {f : Str} {ty : Ty} (hm : (f, ty) ∈ ds) :
    ∃ v v', alookup fs f = some v ∧ alookup fs' f = some v' ∧ Upgrade P P' ty v v' := by
  induction ds' generalizing ds fs fs' with
  | nil => cases h; cases hm
  | cons d ds' ih =>
    have hl := fun hs : (f, ty) ∈ ds => h.labels (List.mem_map.2 ⟨_, hs, rfl⟩)
    simp only [List.map_cons, List.nodup_cons] at hn
    cases h with
    | @keep g t v v' ds _ fs fs' h hs =>
      rcases List.mem_cons.1 hm with e | hm
      · cases e; exact ⟨v, v', by simp [alookup], by simp [alookup], h⟩
      · have : g ≠ f := fun e => hn.1 (by rw [e]; exact hs.labels (List.mem_map.2 ⟨_, hm, rfl⟩))
        obtain ⟨w, w', hw, hw', ht⟩ := ih hs hn.2 hm
        exact ⟨w, w', by simp [alookup, this, hw], by simp [alookup, this, hw'], ht⟩
    | @new g t _ _ fs fs' hs =>
      have : g ≠ f := fun e => hn.1 (by rw [e]; exact hs.labels (List.mem_map.2 ⟨_, hm, rfl⟩))
      obtain ⟨w, w', hw, hw', ht⟩ := ih hs hn.2 hm
      exact ⟨w, w', hw, by simp [alookup, this, hw'], ht⟩

theorem UpgradeFields.lookup_new {ds ds' : List (Str × Ty)} {fs fs' : List (Str × Val)} (h : UpgradeFields P P' ds ds' fs fs') {f : Str}
    (hf : f ∉ ds.map Prod.fst) (hf' : f ∈ ds'.map Prod.fst) : alookup fs' f = some .none := by
  induction ds' generalizing ds fs fs' with
  | nil => cases hf'
  | cons d ds' ih =>
    cases h with
    | @keep g t v v' ds _ fs fs' h hs =>
      simp only [List.map_cons, List.mem_cons, not_or] at hf
      have hg : g ≠ f := Ne.symm hf.1
      rcases List.mem_cons.1 hf' with e | hf'
      · exact absurd e hf.1
      · simp only [alookup, hg, if_false]; exact ih hs hf.2 hf'
    | @new g t _ _ fs fs' hs =>
      by_cases hg : g = f
      · simp [alookup, hg]
      · rcases List.mem_cons.1 hf' with e | hf'
        · exact absurd e.symm hg
        · simp only [alookup, hg, if_false]; exact ih hs hf hf'

section
variable {callW callW' : Str → Val → Ctx → WRes}

/-- Related values are written alike. -/
def SameWrites (P P' : List TypeDef) (callW callW' : Str → Val → Ctx → WRes) : Prop :=
  ∀ i v v' c, Upgrade P P' (.named i) v v' → callW' i v' c = callW i v c

theorem writeVal_up (hW : SameWrites P P' callW callW') {w : ValWrite} {ty : Ty} (hw : w.Takes P ty) {v v' : Val} (h : Upgrade P P' ty v v') :
    writeVal x callW' w v' = writeVal x callW w v := by
  funext c
  cases w with
  | chars t => cases hw; rw [h.prim_eq]; rfl
  | fixed s => rfl
  | call i => obtain ⟨_, rfl⟩ := hw; exact hW i v v' c h

theorem forEach_up {body body' : Val → Ctx → WRes} {ty : Ty} (hb : ∀ v v' c, Upgrade P P' ty v v' → body' v' c = body v c) {vs : List Val} :
    ∀ {vs' : List Val}, UpgradeAll P P' ty vs vs' → ∀ c, forEach body' vs' c = forEach body vs c := by
  induction vs with
  | nil => intro vs' h c; cases h; rfl
  | cons v vs ih =>
    intro vs' h c
    cases h with
    | cons h hs =>
      simp only [forEach, hb _ _ c h]
      congr 1
      funext r
      rw [ih hs]

theorem writeItem_up (hW : SameWrites P P' callW callW') {l : LeafWrite} {ty : Ty} (hl : l.inner.Takes P ty) {v v' : Val}
    (h : Upgrade P P' ty v v') (c : Ctx) : writeItem x callW' l v' c = writeItem x callW l v c := by
  simp only [writeItem, writeVal_up hW hl h]

theorem writeMany_up (hW : SameWrites P P' callW callW') {l : LeafWrite} {ty : Ty} (hl : l.inner.Takes P ty) {v v' : Val}
    (h : Upgrade P P' (if l.vec then .vec ty else ty) v v') (c : Ctx) : writeMany x callW' l v' c = writeMany x callW l v c := by
  unfold writeMany
  by_cases hv : l.vec = true
  · rw [if_pos hv] at h
    simp only [if_pos hv]
    cases h with
    | vec h => exact forEach_up (fun v v' c h => writeItem_up hW hl h c) h c
  · rw [if_neg hv] at h
    simp only [if_neg hv]
    exact writeItem_up hW hl h c

theorem writeLeaf_up (hW : SameWrites P P' callW callW') {ds ds' : List (Str × Ty)} {l : LeafWrite} (hl : l.OK P ds)
    (hn : (ds'.map Prod.fst).Nodup) {fs fs' : List (Str × Val)} (hf : UpgradeFields P P' ds ds' fs fs') (c : Ctx) :
    writeLeaf x callW' l fs' c = writeLeaf x callW l fs c := by
  obtain ⟨⟨ty, hm, ht⟩, _⟩ := hl
  obtain ⟨v, v', hv, hv', h⟩ := hf.lookup hn hm
  simp only [writeLeaf, hv, hv']
  unfold optTy at h
  by_cases ho : l.opt = true
  · rw [if_pos ho] at h
    simp only [if_pos ho]
    cases h with
    | none => rfl
    | some h => exact writeMany_up hW ht h c
  · rw [if_neg ho] at h
    simp only [if_neg ho]
    exact writeMany_up hW ht h c

theorem writeLeaf_new {l : LeafWrite} {ds ds' : List (Str × Ty)} (hl : NewLeafWrite (ds.map Prod.fst) l) (ho : l.OK P' ds')
    {fs fs' : List (Str × Val)} (hf : UpgradeFields P P' ds ds' fs fs') (c : Ctx) : writeLeaf x callW' l fs' c = .ok ([], c) := by
  obtain ⟨⟨ty, hm, _⟩, _⟩ := ho
  simp only [writeLeaf, hf.lookup_new hl.2 (List.mem_map.2 ⟨_, hm, rfl⟩), if_pos hl.1]

theorem writeLeaves_up (hW : SameWrites P P' callW callW') {ds ds' : List (Str × Ty)} (hn : (ds'.map Prod.fst).Nodup)
    {fs fs' : List (Str × Val)} (hf : UpgradeFields P P' ds ds' fs fs') {ls ls' : List LeafWrite}
    (hi : Inserts (NewLeafWrite (ds.map Prod.fst)) ls ls') (hl : ∀ l ∈ ls, l.OK P ds) (hl' : ∀ l ∈ ls', l.OK P' ds') (c : Ctx) :
    writeLeaves x callW' fs' ls' c = writeLeaves x callW fs ls c := by
  induction hi generalizing c with
  | nil => rfl
  | keep h ih =>
    simp only [writeLeaves, writeLeaf_up hW (hl _ (List.mem_cons_self ..)) hn hf c]
    congr 1
    funext r
    rw [ih (fun l h => hl l (List.mem_cons_of_mem _ h)) (fun l h => hl' l (List.mem_cons_of_mem _ h))]
  | new hb h ih =>
    rw [writeLeaves, writeLeaf_new hb (hl' _ (List.mem_cons_self ..)) hf c, Res.bind_ok, ih hl (fun l h => hl' l (List.mem_cons_of_mem _ h))]
    cases writeLeaves x callW fs _ c <;> rfl

theorem displayAt_up {ty : Ty} {v v' : Val} (h : Upgrade P P' ty v v') (hd : Displays P ty) (H : Compiles x P) (H' : Compiles x P') :
    displayAt x P' ty v' = displayAt x P ty v := by
  rcases hd with ⟨p, rfl⟩ | ⟨t, ht, rfl, hd⟩
  · rw [h.prim_eq]; rfl
  · have hft := findType_of_mem H.unique ht
    cases h with
    | @named _ t1 t1' _ _ hf hf' h =>
      rw [hft] at hf; cases hf
      simp only [displayAt, hft, hf']
      rcases hd with ⟨u, l, hdc⟩ | ⟨vs, hdc⟩
      · have hl := (H.typed t ht).literal
        rw [hdc] at h hl
        generalize t1'.decl = d' at h
        cases h with
        | newtype h => simp only [Decl.LitOK] at hl; subst hl; rw [h.prim_eq]; simp only [hdc]
      · have hn := (H.typed t ht).distinct
        have hn' := (H'.typed t1' (findType_mem hf').1).distinct
        rw [hdc] at h hn
        generalize t1'.decl = d' at h hn'
        cases h with
        | enum h => simp only [hdc]
        | values h h' hu => simp only [hdc, alookup_of_mem hn h, alookup_of_mem hn' h']

theorem showAttr_up (H : Compiles x P) (H' : Compiles x P') {a : AttrShow} {ty : Ty} (ha : a.Takes P ty) {v v' : Val} (h : Upgrade P P' ty v v') :
    showAttr x P' a v' = showAttr x P a v := by
  cases a with
  | lit t => cases ha; rw [h.prim_eq]; rfl
  | display ty' => obtain ⟨rfl, hd⟩ := ha; exact displayAt_up h hd H H'
  | fixed s => rfl

theorem writeAttr_up (H : Compiles x P) (H' : Compiles x P') {ds ds' : List (Str × Ty)} {a : AttrWrite} (ha : a.OK P ds)
    (hn : (ds'.map Prod.fst).Nodup) {fs fs' : List (Str × Val)} (hf : UpgradeFields P P' ds ds' fs fs') (c : Ctx) :
    writeAttr x P' a fs' c = writeAttr x P a fs c := by
  obtain ⟨ty, hm, ht⟩ := ha
  obtain ⟨v, v', hv, hv', h⟩ := hf.lookup hn hm
  simp only [writeAttr, hv, hv']
  unfold optTy at h
  by_cases ho : a.optional = true
  · rw [if_pos ho] at h
    simp only [if_pos ho]
    cases h with
    | none => rfl
    | some h => simp only [showAttr_up H H' ht h]
  · rw [if_neg ho] at h
    simp only [if_neg ho, showAttr_up H H' ht h]

theorem writeAttrs_up (H : Compiles x P) (H' : Compiles x P') {ds ds' : List (Str × Ty)} (hn : (ds'.map Prod.fst).Nodup)
    {fs fs' : List (Str × Val)} (hf : UpgradeFields P P' ds ds' fs fs') {as as' : List AttrWrite}
    (hi : Inserts (NewAttrWrite (ds.map Prod.fst)) as as') (ha : ∀ a ∈ as, a.OK P ds) (ha' : ∀ a ∈ as', a.OK P' ds') (c : Ctx) :
    writeAttrs x P' fs' as' c = writeAttrs x P fs as c := by
  induction hi generalizing c with
  | nil => rfl
  | keep h ih =>
    simp only [writeAttrs, writeAttr_up H H' (ha _ (List.mem_cons_self ..)) hn hf c]
    congr 1
    funext r
    rw [ih (fun l h => ha l (List.mem_cons_of_mem _ h)) (fun l h => ha' l (List.mem_cons_of_mem _ h))]
  | @new b _ _ hb h ih =>
    obtain ⟨ty, hm, _⟩ := ha' b (List.mem_cons_self ..)
    have : writeAttr x P' b fs' c = .ok c := by
      simp only [writeAttr, hf.lookup_new hb.2 (List.mem_map.2 ⟨_, hm, rfl⟩), if_pos hb.1]
    rw [writeAttrs, this, Res.bind_ok, ih ha (fun l h => ha' l (List.mem_cons_of_mem _ h))]

theorem writeContent_up (hW : SameWrites P P' callW callW') {ds ds' : List (Str × Ty)} (hn : (ds'.map Prod.fst).Nodup)
    {fs fs' : List (Str × Val)} (hf : UpgradeFields P P' ds ds' fs fs') {w w' : ContentWrite} {tags : Bool}
    (hw : ContentWriteWider (ds.map Prod.fst) w w') (ho : w.OK P ds tags) (ho' : w'.OK P' ds' tags) :
    writeContent x callW' fs' w' = writeContent x callW fs w := by
  funext c
  cases hw with
  | same w =>
    cases w with
    | nothing => rfl
    | single f v =>
      obtain ⟨⟨ty, hm, ht⟩, _⟩ := ho
      obtain ⟨u, u', hu, hu', h⟩ := hf.lookup hn hm
      simp only [writeContent, hu, hu', writeVal_up hW ht h]
    | leaves ls => exact writeLeaves_up hW hn hf (.refl ls) ho ho' c
  | first h => exact writeLeaves_up hW hn hf h (fun _ h => nomatch h) ho' c
  | more h => exact writeLeaves_up hW hn hf h ho ho' c

theorem find_inserts {fs : List Str} {vs vs' : List VarWrite} (h : Inserts (NewVarWrite fs) vs vs') {n : Str} (hn : n ∈ fs) :
    vs'.find? (fun a => decide (a.variant = n)) = vs.find? (fun a => decide (a.variant = n)) := by
  induction h with
  | nil => rfl
  | @keep a _ _ h ih =>
    by_cases ha : a.variant = n
    · simp [List.find?_cons, ha]
    · simp only [List.find?_cons, ha, decide_false, ih]
  | @new b _ _ hb h ih =>
    have : b.variant ≠ n := fun e => hb (e ▸ hn)
    simp only [List.find?_cons, this, decide_false, ih]

theorem writeChoice_up (hW : SameWrites P P' callW callW') {ds ds' : List (Str × Ty)} (hn : (ds.map Prod.fst).Nodup) {vs vs' : List VarWrite}
    (hi : Inserts (NewVarWrite (ds.map Prod.fst)) vs vs') (hcov : ∀ p ∈ ds, ∃ a ∈ vs, a.variant = p.1) (ho : ∀ a ∈ vs, a.OK P ds) {v v' : Val}
    (h : UpgradeDecl P P' (.choice ds) (.choice ds') v v') :
    writeChoice x callW' vs' v' = writeChoice x callW vs v := by
  funext c
  cases h with
  | @choice _ _ i ty u u' hm hm' hu =>
    simp only [writeChoice, find_inserts hi (List.mem_map.2 ⟨_, hm, rfl⟩)]
    cases hfind : vs.find? (fun a => decide (a.variant = i)) with
    | none =>
      obtain ⟨a, ha, hai⟩ := hcov _ hm
      have := List.find?_eq_none.1 hfind a ha
      simp [hai] at this
    | some a =>
      obtain ⟨⟨ty', hm1, htk⟩, _⟩ := ho a (List.mem_of_find?_eq_some hfind)
      have hai := List.find?_some hfind
      simp only [decide_eq_true_eq] at hai
      rw [hai] at hm1
      have hty := nodup_fst_unique hn hm hm1
      have item : ∀ w w' c, Upgrade P P' ty' w w' → writeVarItem x callW' a w' c = writeVarItem x callW a w c := by
        intro w w' c hw
        simp only [writeVarItem, writeVal_up hW htk hw]
      by_cases hv : a.vec = true
      · rw [if_pos hv] at hty
        simp only [if_pos hv]
        subst hty
        cases hu with
        | vec hu => exact forEach_up item hu c
      · rw [if_neg hv] at hty
        simp only [if_neg hv]
        subst hty
        exact item _ _ c hu

theorem runTo_up (H : Compiles x P) (H' : Compiles x P') (hW : SameWrites P P' callW callW') {t t' : TypeDef} (ht : t ∈ P) (ht' : t' ∈ P')
    (hw : WritesWider t t') {v v' : Val} (h : UpgradeDecl P P' t.decl t'.decl v v') (c : Ctx) :
    runTo x P' callW' t' v' c = runTo x P callW t v c := by
  have hwr := hw.write
  have W := (H.typed t ht).writes
  have W' := (H'.typed t' ht').writes
  have hn := (H.typed t ht).distinct
  have hn' := (H'.typed t' ht').distinct
  unfold runTo
  simp only [hw.nss]
  generalize setNss t.nss c = c
  generalize t.toXml = b at hwr W
  generalize t'.toXml = b' at hwr W'
  generalize t.decl = d at *
  generalize t'.decl = d' at *
  cases hwr with
  | leaf w tags =>
    cases d <;> try exact W.elim
    cases h with
    | newtype h => simp only [writeVal_up hW W.1 h]
  | enumText =>
    cases d <;> try exact W.elim
    cases h with
    | enum h => rfl
    | values h h' hu => simp only [alookup_of_mem hn h, alookup_of_mem hn' h']
  | element ha hc =>
    cases d <;> try exact W.elim
    cases h with
    | struct h =>
      simp only [writeAttrs_up H H' hn' h ha W.1 W'.1, writeContent_up hW hn' h hc W.2 W'.2]
  | choice hi =>
    cases d <;> try exact W.elim
    cases d' <;> try exact W'.elim
    simp only [writeChoice_up hW hn hi W.2.1 W.2.2 h]

theorem toXmlWriter_up (H : Compiles x P) (H' : Compiles x P') (hP : ModuleWritesWider P P') (k : Nat) :
    SameWrites P P' (toXmlWriter x P k) (toXmlWriter x P' k) := by
  induction k with
  | zero => intro i v v' c _; rfl
  | succ k ih =>
    intro i v v' c h
    cases h with
    | @named _ t t' _ _ hf hf' h =>
      obtain ⟨t1, hf1, hw⟩ := hP i t hf
      rw [hf'] at hf1; cases hf1
      simp only [toXmlWriter, hf, hf']
      exact runTo_up H H' ih (findType_mem hf).1 (findType_mem hf').1 hw h c

end

theorem toXml_up (H : Compiles x P) (H' : Compiles x P') (hP : ModuleWritesWider P P') {i : Str} {v v' : Val}
    (h : Upgrade P P' (.named i) v v') (k : Nat) : toXml x P' k i v' = toXml x P k i v := by
  have h1 := h
  cases h1 with
  | @named _ t t' _ _ hf hf' _ =>
    obtain ⟨t1, hf1, hw⟩ := hP i t hf
    rw [hf'] at hf1; cases hf1
    simp only [toXml, hf, hf', hw.xmlName, toXmlWriter_up H H' hP k i v v' _ h]

end Xsd
