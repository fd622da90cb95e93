import Verif.Spec.Shape
import Verif.Props.Balanced
import Verif.Props.CompilesSample
import Verif.Props.Defects
/-!
# Which types write an element (C15)
-/
namespace Xsd

variable {x : Ext} {S : SchemaContext} {P : List TypeDef}

/-- One element with the name `nm`. -/
def OneElement (nm : Str) (evs : List Ev) : Prop := ∃ as ns mid, evs = .start nm as ns :: (mid ++ [.fin]) ∧ Balanced mid

/-- Text, or nothing. -/
def OnlyText (evs : List Ev) : Prop := evs = [] ∨ ∃ s, evs = [.chars s]

/-- What is written for a shape, under the name `nm`. -/
def Shape.Fits (nm : Str) : Shape → List Ev → Prop
  | .element, evs => OneElement nm evs
  | .text, evs => OnlyText evs
  | .members, evs => Balanced evs

theorem setNss_name (ns : List (Str × Str)) (c : Ctx) : (setNss ns c).inner.name = c.inner.name := by
  induction ns generalizing c with
  | nil => rfl
  | cons b ns ih =>
    show (setNss ns _).inner.name = _
    rw [ih]
    obtain ⟨v, i⟩ := c
    show (if b.1 = [] then Ctx.setDefaultNs _ b.2 else Ctx.setNs _ b.1 b.2).inner.name = _
    split <;> cases v <;> rfl

theorem setAttr_name (c : Ctx) (n v : Str) : (c.setAttr n v).inner.name = c.inner.name := by
  obtain ⟨b, i⟩ := c; cases b <;> rfl

theorem writeAttrs_name {as : List AttrWrite} {fs : List (Str × Val)} {c c' : Ctx} (h : writeAttrs x P fs as c = .ok c') :
    c'.inner.name = c.inner.name := by
  induction as generalizing c with
  | nil => cases h; rfl
  | cons a as ih =>
    simp only [writeAttrs, Res.bind_eq_ok] at h
    obtain ⟨c1, h1, h⟩ := h
    refine (ih h).trans ?_
    unfold writeAttr at h1
    split at h1
    · cases h1
    · split at h1
      · split at h1
        · cases h1; rfl
        · split at h1
          · cases h1; exact setAttr_name ..
          · cases h1
        · cases h1
      · split at h1
        · cases h1; exact setAttr_name ..
        · cases h1

theorem withTags_element {body : Ctx → WRes} (hb : BalW body) {c c' : Ctx} {evs : List Ev} (hv : c.virt = false)
    (h : withTags true body c = .ok (evs, c')) : OneElement c.inner.name evs := by
  obtain ⟨v, i⟩ := c
  cases hv
  simp only [withTags, if_true, Res.bind_eq_ok] at h
  obtain ⟨⟨evs1, c1⟩, h1, h⟩ := h
  cases h
  obtain ⟨h2, h3⟩ := hb _ _ _ h1
  refine ⟨i.attrs, i.nss, evs1, ?_, h3⟩
  have h2 : c1.virt = false := h2
  simp only [Ctx.writeStart, Ctx.writeEnd, h2]
  rfl

theorem writeVal_onlyText {callW : Str → Val → Ctx → WRes} {w : ValWrite} (hw : ∀ i, w ≠ .call i) {v : Val} {c c' : Ctx} {evs : List Ev}
    (h : writeVal x callW w v c = .ok (evs, c')) : OnlyText evs := by
  cases w with
  | chars t =>
    simp only [writeVal] at h
    split at h
    · cases h
      split
      · exact .inl rfl
      · exact .inr ⟨_, rfl⟩
    · cases h
  | fixed s => cases h; exact .inr ⟨s, rfl⟩
  | call i => exact absurd rfl (hw i)

theorem toXmlWriter_shape (G : Generated x S P) (k : Nat) : ∀ (n : Name) (i : Str) (v : Val) (c c' : Ctx) (evs : List Ev),
    typeIdent x n = .ok i → (S.get n).isSome = true → c.virt = false → toXmlWriter x P k i v c = .ok (evs, c') →
    ∃ sh, WrittenAs S n sh ∧ sh.Fits c.inner.name evs := by
  induction k with
  | zero => intro n i v c c' evs _ _ _ h; cases h
  | succ k ih =>
    intro n i v c c' evs hi hn hv h
    obtain ⟨r, t, hr, hf, _, hg⟩ := G.find' hi hn
    have hall := (toXmlWriter_bal (k + 1) i v _ _ _ h).2
    have ihb : ∀ i v, BalW (toXmlWriter x P k i v) := toXmlWriter_bal k
    have hs := (setNss_virt' t.nss c).trans hv
    have hnm := setNss_name t.nss c
    simp only [toXmlWriter, hf, runTo] at h
    generalize setNss t.nss c = c0 at h hs hnm
    rw [← hnm]
    have hw := hg.write
    -- the value of a named content
    have key : ∀ (lc : LeafContent) (w : ValWrite) (val : Val) (c1 : Ctx), lc ∈ r.contents → contentWrite x S lc = .ok w → c1.virt = false →
        c1.inner.name = c0.inner.name → writeVal x (toXmlWriter x P k) w val c1 = .ok (evs, c') →
        (((∃ t, Means S lc (.literal t)) ∨ (∃ s, Means S lc (.fixed s))) ∧ OnlyText evs) ∨
        ∃ m sh, Means S lc (.named m) ∧ WrittenAs S m sh ∧ sh.Fits c0.inner.name evs := by
      intro lc w val c1 hlc hcw hv1 hn1 h
      rcases contentWrite_ok hcw with ⟨t, hm, rfl⟩ | ⟨s, hm, rfl⟩ | ⟨m, j, hm, hj, rfl⟩
      · exact .inl ⟨.inl ⟨t, hm⟩, writeVal_onlyText (by intro i h; cases h) h⟩
      · exact .inl ⟨.inr ⟨s, hm⟩, writeVal_onlyText (by intro i h; cases h) h⟩
      · obtain ⟨sh, h1, h2⟩ := ih m j val c1 c' evs hj (G.closedAt hr hlc hm) hv1 h
        exact .inr ⟨m, sh, hm, h1, hn1 ▸ h2⟩
    cases r with
    | leaf d =>
      simp only [rootWrite, Res.bind_eq_ok] at hw
      obtain ⟨w, hcw, hw⟩ := hw
      cases hw' : t.toXml <;> rw [hw'] at hw <;> cases hw
      rw [hw'] at h
      simp only at h
      cases v <;> try cases h
      cases hd : d.content with
      | named m =>
        rw [hd] at h
        simp only [withTags] at h
        rcases key d.content w _ c0 (by simp [Root.contents]) hcw hs rfl h with ⟨⟨t, hm⟩ | ⟨s, hm⟩, ht⟩ | ⟨m', sh, hm, h1, h2⟩
        · exact ⟨.text, .typedText hr hd hm, ht⟩
        · exact ⟨.text, .typedFixed hr hd hm, ht⟩
        · exact ⟨sh, .typed hr hd hm h1, h2⟩
      | literal t =>
        rw [hd] at h
        exact ⟨.element, .simple hr (by rw [hd]; exact nofun), withTags_element (writeVal_bal ihb _ _) hs h⟩
      | fixed s =>
        rw [hd] at h
        exact ⟨.element, .simple hr (by rw [hd]; exact nofun), withTags_element (writeVal_bal ihb _ _) hs h⟩
    | enum vs =>
      cases hw' : t.toXml <;> rw [hw'] at hw <;> cases hw
      rw [hw'] at h
      refine ⟨.element, .enum hr, ?_⟩
      simp only at h
      split at h
      · split at h
        · refine withTags_element ?_ hs h
          intro c evs c' hr
          cases hr
          refine ⟨rfl, ?_⟩
          split
          · exact .nil
          · exact .chars _ .nil
        · cases h
      · cases h
    | element d =>
      simp only [rootWrite, Res.bind_eq_ok] at hw
      obtain ⟨as, _, w, hcw, hw⟩ := hw
      cases hw' : t.toXml <;> rw [hw'] at hw <;> cases hw
      rw [hw'] at h
      simp only at h
      cases v <;> try cases h
      rw [Res.bind_eq_ok] at h
      obtain ⟨c1, h1, h⟩ := h
      have hv1 := (writeAttrs_virt h1).trans hs
      have hn1 := writeAttrs_name h1
      by_cases hd : d.named
      · obtain ⟨ln, ld, m, hd, hld⟩ := hd
        rw [hd] at hcw
        simp only [elementContentWrite, Res.bind_eq_ok] at hcw
        obtain ⟨f, _, w', hcw, hh⟩ := hcw
        cases hh
        have : isNamedLeaf d.content = true := by rw [hd]; simp only [isNamedLeaf, hld]
        rw [this] at h
        simp only [Bool.not_true, Bool.and_false, withTags, Bool.false_eq_true, if_false, writeContent] at h
        split at h
        · next val _ =>
          rcases key ld.content w' val c1 (by simp [Root.contents, hd]) hcw hv1 hn1 h with ⟨⟨t, hm⟩ | ⟨s, hm⟩, ht⟩ | ⟨m', sh, hm, h1, h2⟩
          · exact ⟨.text, .extendsText hr hd hld hm, ht⟩
          · exact ⟨.text, .extendsFixed hr hd hld hm, ht⟩
          · exact ⟨sh, .extends hr hd hld hm h1, h2⟩
        · cases h
      · have : isNamedLeaf d.content = false := by
          unfold isNamedLeaf
          split
          · next n ld hc =>
            split
            · next m hm => exact absurd ⟨n, ld, m, hc, hm⟩ hd
            · rfl
          · rfl
        rw [this] at h
        cases hvirt : d.isVirtual with
        | true => exact ⟨.members, .group hr hvirt hd, hall⟩
        | false =>
          rw [hvirt] at h
          exact ⟨.element, .record hr hvirt hd, hn1 ▸ withTags_element (writeContent_bal ihb _ _) hv1 h⟩
    | choice vs b docs =>
      simp only [rootWrite, Res.bind_eq_ok] at hw
      obtain ⟨ws, _, hw⟩ := hw
      cases hw' : t.toXml <;> rw [hw'] at hw <;> cases hw
      rw [hw'] at h
      cases b with
      | true => exact ⟨.members, .choiceGroup hr, hall⟩
      | false => exact ⟨.element, .choice hr, withTags_element (writeChoice_bal ihb _ _) hs h⟩

/-- A type has one shape. -/
theorem WrittenAs.unique {n : Name} {sh sh' : Shape} (h : WrittenAs S n sh) (h' : WrittenAs S n sh') : sh = sh' := by
  induction h generalizing sh' with
  | simple h hc => cases h' <;> grind
  | enum h => cases h' <;> grind
  | record h hv hc => cases h' <;> grind [ElementDef.named]
  | choice h => cases h' <;> grind
  | group h hv hc => cases h' <;> grind [ElementDef.named]
  | choiceGroup h => cases h' <;> grind
  | typedText h hc ht => cases h' <;> grind [Means.functional]
  | typedFixed h hc ht => cases h' <;> grind [Means.functional]
  | typed h hc ht hs ih => cases h' <;> grind [Means.functional]
  | extendsText h hd hc ht => cases h' <;> grind [Means.functional, ElementDef.named]
  | extendsFixed h hd hc ht => cases h' <;> grind [Means.functional, ElementDef.named]
  | «extends» h hd hc ht hs ih => cases h' <;> grind [Means.functional, ElementDef.named]

/-- **C15**, shape: for all generated modules, what `to_xml` writes is one element with the name of the type, text only, or the members of a
group, as `WrittenAs` says. -/
theorem C15_shape (G : Generated x S P) {n : Name} {i : Str} (hi : typeIdent x n = .ok i) (hn : (S.get n).isSome = true) {v : Val} {evs : List Ev}
    (h : ToXml x P i v (.ok evs)) : ∃ sh nm, WrittenAs S n sh ∧ S.xmlName n = .ok nm ∧ sh.Fits nm evs := by
  obtain ⟨_, k, h⟩ := h
  obtain ⟨r, t, hr, hf, _, hg⟩ := G.find' hi hn
  simp only [toXml, hf, Res.bind_eq_ok] at h
  obtain ⟨⟨evs', c'⟩, h1, h⟩ := h
  cases h
  obtain ⟨sh, h2, h3⟩ := toXmlWriter_shape G k n i v _ _ _ hi hn rfl h1
  exact ⟨sh, t.xmlName, h2, hg.xmlName, h3⟩

/-- **C15**, exactly: in a module that compiles, `to_xml` succeeds for every value of a type that is not a group, and it writes one
element, with the name of the type, for all of them or for none: if and only if the type is written as an element. -/
theorem C15_iff (G : Generated x S P) (H : Compiles x P) {n : Name} {i : Str} (hi : typeIdent x n = .ok i) (hn : (S.get n).isSome = true)
    (hg : ¬ WrittenAs S n .members) {v : Val} (hv : HasTy P (.named i) v) :
    ∃ evs nm, ToXml x P i v (.ok evs) ∧ S.xmlName n = .ok nm ∧ Balanced evs ∧ (OneElement nm evs ↔ WrittenAs S n .element) := by
  obtain ⟨evs, h⟩ := C59_writes H hv
  obtain ⟨sh, nm, h1, h2, h3⟩ := C15_shape G hi hn h
  refine ⟨evs, nm, h, h2, C16_balanced h, fun he => ?_, fun he => ?_⟩
  · cases sh with
    | element => exact h1
    | text =>
      obtain ⟨as, ns, mid, rfl, _⟩ := he
      rcases h3 with h3 | ⟨s, h3⟩ <;> cases h3
    | members => exact absurd h1 hg
  · have := h1.unique he
    subst this
    exact h3

/-! ## Cases -/

open Sample in
/-- The sample type is a record. -/
example : WrittenAs sch (nm c!"Article") .element := .record rfl rfl (by rintro ⟨_, _, _, h, _⟩; cases h)

open Defects Sample in
/-- The element with a named simple type (`C15_false`) is written as text. -/
theorem Defects.item_text : WrittenAs (mk alias) (nm c!"Item") .text := .typedText rfl rfl (.alias rfl (.literal _))

open Defects Sample in
/-- The group of an extension is written as its members (`group_writes`). -/
example : WrittenAs (mk extension) (nm c!"EmployeePerson") .members := .group rfl rfl (by rintro ⟨_, _, _, h, _⟩; cases h)

open Sample in
/-- C15_iff for the sample value. -/
example : ∃ evs nm', ToXml sampleExt pgm c!"Article" val (.ok evs) ∧ sch.xmlName (nm c!"Article") = .ok nm' ∧ OneElement nm' evs := by
  have hs : WrittenAs sch (nm c!"Article") .element := .record rfl rfl (by rintro ⟨_, _, _, h, _⟩; cases h)
  obtain ⟨evs, nm', h1, h2, _, h3⟩ := C15_iff generated compiles article_ident (by rfl) (fun h => nomatch hs.unique h)
    ((C59_reads compiles (i := c!"Article") (by decide +kernel : ∃ t ∈ pgm, t.ident = c!"Article") doc_decodes).2 _ rfl)
  exact ⟨evs, nm', h1, h2, h3.2 hs⟩

end Xsd
