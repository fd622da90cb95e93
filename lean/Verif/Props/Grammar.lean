import Verif.Lemmas.Grammar
import Verif.Props.SchemaNames
import Verif.Spec.Files
/-!
# What is accepted in schema documents (C35, C36, C51)
-/
namespace Xsd

section
variable {x : Ext} {e : Env}

/-- A child with a meaning was interpreted in its role. -/
theorem parsed_step {k k' : Kind} {nd c : Nd} (h : ParsedAs x e k nd) (hs : Step k nd k' c) : ParsedAs x e k' c := by
  cases hs with
  | topComplexType hc ht hn =>
    obtain ⟨_, k, parent, s, r, s', he, h⟩ := h
    rcases elementRoot_kids he h c hc with ⟨h1, h2⟩ | ⟨_, h1, h2⟩ | ⟨_, h1, h2⟩
    · exact absurd (h1.symm.trans hn) (by decide)
    · exact h2
    · exact absurd (h1.symm.trans hn) (by decide)
  | topSimpleType hc ht hn =>
    obtain ⟨_, k, parent, s, r, s', he, h⟩ := h
    rcases elementRoot_kids he h c hc with ⟨h1, h2⟩ | ⟨_, h1, h2⟩ | ⟨_, h1, h2⟩
    · exact absurd (h1.symm.trans hn) (by decide)
    · exact absurd (h1.symm.trans hn) (by decide)
    · exact h2
  | topAnnotation hc hn =>
    obtain ⟨_, k, parent, s, r, s', he, h⟩ := h
    rcases elementRoot_kids he h c hc with ⟨h1, h2⟩ | ⟨_, h1, h2⟩ | ⟨_, h1, h2⟩
    · exact h2
    · exact absurd (h1.symm.trans hn) (by decide)
    · exact absurd (h1.symm.trans hn) (by decide)
  | localComplexType hc hr ht hn =>
    rcases localElement_kids h hr ht hc (.inl hn) c hc with ⟨h1, h2⟩ | ⟨h1, h2⟩ | ⟨h1, h2⟩
    · exact absurd (h1.symm.trans hn) (by decide)
    · exact h2
    · exact absurd (h1.symm.trans hn) (by decide)
  | localSimpleType hc hr ht hn =>
    rcases localElement_kids h hr ht hc (.inr hn) c hc with ⟨h1, h2⟩ | ⟨h1, h2⟩ | ⟨h1, h2⟩
    · exact absurd (h1.symm.trans hn) (by decide)
    · exact absurd (h1.symm.trans hn) (by decide)
    · exact h2
  | complexSimpleContent hc hn =>
    obtain ⟨_, k, parent, s, r, s', he, h⟩ := h
    rcases complexType_kids he h c (by split <;> exact hc) with ⟨h1, h2⟩ | ⟨h1, h2⟩ | ⟨h1, h2⟩ | ⟨h1 | h1, h2⟩ | ⟨h1, h2⟩ | ⟨h1, h2⟩
    all_goals first | exact h2 | exact absurd (h1.symm.trans hn) (by decide)
  | complexComplexContent hc hn =>
    obtain ⟨_, k, parent, s, r, s', he, h⟩ := h
    rcases complexType_kids he h c (by split <;> exact hc) with ⟨h1, h2⟩ | ⟨h1, h2⟩ | ⟨h1, h2⟩ | ⟨h1 | h1, h2⟩ | ⟨h1, h2⟩ | ⟨h1, h2⟩
    all_goals first | exact h2 | exact absurd (h1.symm.trans hn) (by decide)
  | complexSequence hc hn =>
    obtain ⟨_, k, parent, s, r, s', he, h⟩ := h
    rcases complexType_kids he h c (by split <;> exact hc) with ⟨h1, h2⟩ | ⟨h1, h2⟩ | ⟨h1, h2⟩ | ⟨h1 | h1, h2⟩ | ⟨h1, h2⟩ | ⟨h1, h2⟩
    all_goals first | exact h2 | exact absurd (h1.symm.trans hn) (by decide)
  | complexAll hc hn =>
    obtain ⟨_, k, parent, s, r, s', he, h⟩ := h
    rcases complexType_kids he h c (by split <;> exact hc) with ⟨h1, h2⟩ | ⟨h1, h2⟩ | ⟨h1, h2⟩ | ⟨h1 | h1, h2⟩ | ⟨h1, h2⟩ | ⟨h1, h2⟩
    all_goals first | exact h2 | exact absurd (h1.symm.trans hn) (by decide)
  | complexChoice hc hn =>
    obtain ⟨_, k, parent, s, r, s', he, h⟩ := h
    rcases complexType_kids he h c (by split <;> exact hc) with ⟨h1, h2⟩ | ⟨h1, h2⟩ | ⟨h1, h2⟩ | ⟨h1 | h1, h2⟩ | ⟨h1, h2⟩ | ⟨h1, h2⟩
    all_goals first | exact h2 | exact absurd (h1.symm.trans hn) (by decide)
  | complexAttribute hc hn =>
    obtain ⟨_, k, parent, s, r, s', he, h⟩ := h
    rcases complexType_kids he h c (by split <;> exact hc) with ⟨h1, h2⟩ | ⟨h1, h2⟩ | ⟨h1, h2⟩ | ⟨h1 | h1, h2⟩ | ⟨h1, h2⟩ | ⟨h1, h2⟩
    all_goals first | exact h2 | exact absurd (h1.symm.trans hn) (by decide)
  | complexAnnotation hc hn =>
    obtain ⟨_, k, parent, s, r, s', he, h⟩ := h
    rcases complexType_kids he h c (by split <;> exact hc) with ⟨h1, h2⟩ | ⟨h1, h2⟩ | ⟨h1, h2⟩ | ⟨h1 | h1, h2⟩ | ⟨h1, h2⟩ | ⟨h1, h2⟩
    all_goals first | exact h2 | exact absurd (h1.symm.trans hn) (by decide)
  | simpleRestriction hc hn =>
    obtain ⟨_, s, r, s', he, h⟩ := h
    rcases simpleType_kids (e := e) h c (by split <;> exact hc) with ⟨h1, h2⟩ | ⟨h1, h2⟩
    · exact absurd (h1.symm.trans hn) (by decide)
    · exact h2
  | simpleAnnotation hc hn =>
    obtain ⟨_, s, r, s', he, h⟩ := h
    rcases simpleType_kids (e := e) h c (by split <;> exact hc) with ⟨h1, h2⟩ | ⟨h1, h2⟩
    · exact h2
    · exact absurd (h1.symm.trans hn) (by decide)
  | simpleExtension hc hn =>
    obtain ⟨_, parent, s, r, s', he, h⟩ := h
    cases h with
    | named extension base n s1 attributes s' hp hr hb ht ha hk =>
      obtain ⟨rfl, _⟩ := rk_only hr hc
      exact ⟨hk, parent, s1.discoverType n parent, _, _, (getTypeName_env ht).trans he, ha⟩
    | literal extension base t s1 attributes s' hp hr hb ht ha hk =>
      obtain ⟨rfl, _⟩ := rk_only hr hc
      exact ⟨hk, parent, _, _, _, (getTypeName_env ht).trans he, ha⟩
  | complexExtension hc hn =>
    obtain ⟨_, k, parent, s, r, s', he, h⟩ := h
    cases k with
    | zero => cases h
    | succ k =>
      replace h := parseComplexContent_run x h
      cases h with
      | mk extension base n s1 vl s2 attributes s' hp hr hb ht h ha hk =>
        obtain ⟨rfl, _⟩ := rk_only hr hc
        have he1 : (s1.discoverType n parent).env = e := (getTypeName_env ht).trans he
        have he2 := ((ParseLaw.all x docLaw_ok k).extension trivial (trivial : docLaw.Nm (s1.discoverType n parent) parent) h).2.1
        exact ⟨hk, ⟨parent, s2, _, _, (show s2.env = _ from he2).trans he1, ha⟩, k, n, parent, _, _, _, he1, h⟩
  | simpleExtAttribute hc hn =>
    obtain ⟨hk, parent, s, r, s', he, h⟩ := h
    rw [(removeKids_rest hk).1] at h
    obtain ⟨s2, r2, s3, he2, hr⟩ := attributes_parsed h he c hc
    exact ⟨kid_fresh hc, parent, s2, r2, s3, he2, hr⟩
  | complexExtAttribute hc hn =>
    obtain ⟨hk, ⟨parent, s, r, s', he, h⟩, _⟩ := h
    rw [(removeKids_rest hk).1] at h
    obtain ⟨s2, r2, s3, he2, hr⟩ := attributes_parsed h he c (rk_keep hc (by rw [hn]; decide))
    exact ⟨kid_fresh hc, parent, s2, r2, s3, he2, hr⟩
  | complexExtSequence hc hn =>
    obtain ⟨hk, _, k, base, parent, s, r, s', he, h⟩ := h
    have hr2 := (removeKids_rest hk).2
    rcases rk_mem c!"sequence" hc with h' | h'
    · rw [h'] at h
      cases k with
      | zero => unfold parseExtension at h; cases h
      | succ k =>
        replace h := parseExtension_run x h
        cases h with
        | some child mn leaves s1 v hmn h hv => exact ⟨kid_fresh hc, k, parent, s, _, _, he, h⟩
    · have := name_of_info (hr2 c h')
      exact absurd (this.symm.trans hn) (by decide)
  | seqElement hc hn =>
    obtain ⟨_, k, parent, s, r, s', he, h⟩ := h
    rcases sequence_kids he h c hc with h1 | ⟨h1, h2⟩ | ⟨h1, h2⟩ | ⟨h1, h2⟩
    all_goals first | exact h2 | exact absurd (h1.symm.trans hn) (by decide)
  | seqChoice hc hn =>
    obtain ⟨_, k, parent, s, r, s', he, h⟩ := h
    rcases sequence_kids he h c hc with h1 | ⟨h1, h2⟩ | ⟨h1, h2⟩ | ⟨h1, h2⟩
    all_goals first | exact h2 | exact absurd (h1.symm.trans hn) (by decide)
  | seqSequence hc hn =>
    obtain ⟨_, k, parent, s, r, s', he, h⟩ := h
    rcases sequence_kids he h c hc with h1 | ⟨h1, h2⟩ | ⟨h1, h2⟩ | ⟨h1, h2⟩
    all_goals first | exact h2 | exact absurd (h1.symm.trans hn) (by decide)
  | choiceElement hc hn =>
    obtain ⟨_, k, parent, s, r, s', he, h⟩ := h
    rcases choice_kids he h c hc with h1 | ⟨h1, h2⟩ | ⟨h1, h2⟩
    all_goals first | exact h2 | exact absurd (h1.symm.trans hn) (by decide)
  | choiceSequence hc hn =>
    obtain ⟨_, k, parent, s, r, s', he, h⟩ := h
    rcases choice_kids he h c hc with h1 | ⟨h1, h2⟩ | ⟨h1, h2⟩
    all_goals first | exact h2 | exact absurd (h1.symm.trans hn) (by decide)
  | attrSimpleType hc hn =>
    obtain ⟨_, parent, s, r, s', he, h⟩ := h
    rcases attribute_kids he h c hc with ⟨h1, h2⟩ | ⟨h1, h2⟩
    all_goals first | exact h2 | exact absurd (h1.symm.trans hn) (by decide)
  | attrAnnotation hc hn =>
    obtain ⟨_, parent, s, r, s', he, h⟩ := h
    rcases attribute_kids he h c hc with ⟨h1, h2⟩ | ⟨h1, h2⟩
    all_goals first | exact h2 | exact absurd (h1.symm.trans hn) (by decide)

theorem parsed_within {k k' : Kind} {nd c : Nd} (h : ParsedAs x e k nd) (hw : Within k nd k' c) : ParsedAs x e k' c := by
  induction hw with
  | refl => exact h
  | step hs hw ih => exact ih (parsed_step h hs)

/-- Every child of an interpreted node has a meaning. -/
theorem parsed_children {k : Kind} {nd : Nd} (h : ParsedAs x e k nd) : ChildrenOK k nd := by
  cases k with
  | topElement =>
    obtain ⟨_, k, parent, s, r, s', he, h⟩ := h
    intro c hc
    rcases elementRoot_kids he h c hc with ⟨h1, h2⟩ | ⟨ht, h1, h2⟩ | ⟨ht, h1, h2⟩
    · exact ⟨_, .topAnnotation hc h1⟩
    · exact ⟨_, .topComplexType hc ht h1⟩
    · exact ⟨_, .topSimpleType hc ht h1⟩
  | localElement =>
    rintro ⟨k', d, hs⟩ c hc
    cases hs with
    | localComplexType hd hr ht hn =>
      rcases localElement_kids h hr ht hd (.inl hn) c hc with ⟨h1, h2⟩ | ⟨h1, h2⟩ | ⟨h1, h2⟩
      · exact .inl h1
      · exact .inr ⟨_, .localComplexType hc hr ht h1⟩
      · exact .inr ⟨_, .localSimpleType hc hr ht h1⟩
    | localSimpleType hd hr ht hn =>
      rcases localElement_kids h hr ht hd (.inr hn) c hc with ⟨h1, h2⟩ | ⟨h1, h2⟩ | ⟨h1, h2⟩
      · exact .inl h1
      · exact .inr ⟨_, .localComplexType hc hr ht h1⟩
      · exact .inr ⟨_, .localSimpleType hc hr ht h1⟩
  | complexType top =>
    obtain ⟨_, k, parent, s, r, s', he, h⟩ := h
    intro c hc
    rcases complexType_kids he h c (by split <;> exact hc) with ⟨h1, h2⟩ | ⟨h1, h2⟩ | ⟨h1, h2⟩ | ⟨h1 | h1, h2⟩ | ⟨h1, h2⟩ | ⟨h1, h2⟩
    · exact ⟨_, .complexAnnotation hc h1⟩
    · exact ⟨_, .complexSimpleContent hc h1⟩
    · exact ⟨_, .complexComplexContent hc h1⟩
    · exact ⟨_, .complexSequence hc h1⟩
    · exact ⟨_, .complexAll hc h1⟩
    · exact ⟨_, .complexChoice hc h1⟩
    · exact ⟨_, .complexAttribute hc h1⟩
  | simpleType top =>
    obtain ⟨_, s, r, s', he, h⟩ := h
    intro c hc
    rcases simpleType_kids (e := e) h c (by split <;> exact hc) with ⟨h1, h2⟩ | ⟨h1, h2⟩
    · exact ⟨_, .simpleAnnotation hc h1⟩
    · exact ⟨_, .simpleRestriction hc h1⟩
  | simpleContent =>
    obtain ⟨_, parent, s, r, s', he, h⟩ := h
    intro c hc
    cases h with
    | named extension base n s1 attributes s' hp hr hb ht ha hk =>
      exact ⟨_, .simpleExtension hc (name_of_info (rk_only hr hc).2)⟩
    | literal extension base t s1 attributes s' hp hr hb ht ha hk =>
      exact ⟨_, .simpleExtension hc (name_of_info (rk_only hr hc).2)⟩
  | complexContent =>
    obtain ⟨_, k, parent, s, r, s', he, h⟩ := h
    intro c hc
    cases k with
    | zero => cases h
    | succ k =>
      replace h := parseComplexContent_run x h
      cases h with
      | mk extension base n s1 vl s2 attributes s' hp hr hb ht h ha hk =>
        exact ⟨_, .complexExtension hc (name_of_info (rk_only hr hc).2)⟩
  | simpleExtension =>
    obtain ⟨hk, _⟩ := h
    intro c hc
    exact ⟨_, .simpleExtAttribute hc (name_of_info ((removeKids_rest hk).2 c hc))⟩
  | complexExtension =>
    obtain ⟨hk, _⟩ := h
    intro c hc
    rcases rk_mem c!"sequence" hc with h' | h'
    · exact ⟨_, .complexExtSequence hc (name_of_info (rk_name h').1)⟩
    · exact ⟨_, .complexExtAttribute hc (name_of_info ((removeKids_rest hk).2 c h'))⟩
  | sequence occ =>
    obtain ⟨_, k, parent, s, r, s', he, h⟩ := h
    intro c hc
    rcases sequence_kids he h c hc with h1 | ⟨h1, h2⟩ | ⟨h1, h2⟩ | ⟨h1, h2⟩
    · exact .inl h1
    · exact .inr ⟨_, .seqElement hc h1⟩
    · exact .inr ⟨_, .seqChoice hc h1⟩
    · exact .inr ⟨_, .seqSequence hc h1⟩
  | choice occ =>
    obtain ⟨_, k, parent, s, r, s', he, h⟩ := h
    intro c hc
    rcases choice_kids he h c hc with h1 | ⟨h1, h2⟩ | ⟨h1, h2⟩
    · exact .inl h1
    · exact .inr ⟨_, .choiceElement hc h1⟩
    · exact .inr ⟨_, .choiceSequence hc h1⟩
  | «attribute» =>
    obtain ⟨_, parent, s, r, s', he, h⟩ := h
    intro c hc
    rcases attribute_kids he h c hc with ⟨h1, h2⟩ | ⟨h1, h2⟩
    · exact ⟨_, .attrAnnotation hc h1⟩
    · exact ⟨_, .attrSimpleType hc h1⟩
  | restriction =>
    obtain ⟨fs, h⟩ := h
    exact facets_names h
  | annotation =>
    obtain ⟨hs, docs, h⟩ := h
    unfold parseAnnotation1 at h
    obtain ⟨_, _, h⟩ := Res.bind_eq_ok.1 h
    obtain ⟨_, hc, h⟩ := Res.bind_eq_ok.1 h
    rw [preventUnvisitedChildren_ok] at hc
    intro c hcm
    rcases rk_mem c!"documentation" hcm with h' | h'
    · exact name_of_info (rk_name h').1
    · exact name_of_info ((removeKids_rest hc).2 c h')

end


/-! ## All files -/

theorem foldl_docNss (l : List (Option Str × Str)) (m : List (Str × Str)) : ∀ p ∈ l.foldl (fun m p =>
    match p.1 with
    | some pfx => ainsert m pfx p.2
    | none => m) m, p ∈ m ∨ (some p.1, p.2) ∈ l := by
  induction l generalizing m with
  | nil => exact fun p hp => .inl hp
  | cons q l ih =>
    intro p hp
    rcases ih _ p hp with h | h
    · obtain ⟨q1, q2⟩ := q
      cases q1 with
      | none => exact .inl h
      | some pfx =>
        rcases mem_ainsert h with rfl | h
        · exact .inr (.head _)
        · exact .inl h
    · exact .inr (.tail _ h)

theorem envOf_new (root : ElemInfo) (target : Option Str) (t : Namespaces) (deps : List (Name × List Name)) :
    EnvOf root (PCtx.new root target t deps).env := by
  refine ⟨?_, ?_, fun hn => ?_, ?_⟩
  · intro p u h
    rcases foldl_docNss _ _ (p, u) h with h | h
    · cases h
    · exact h
  · intro u h
    obtain ⟨⟨q1, q2⟩, hq, rfl⟩ := Option.map_eq_some_iff.1 h
    have h1 := List.mem_of_find?_eq_some hq
    have h2 : decide (q1 = none) = true := List.find?_some (p := fun p : Option Str × Str => decide (p.1 = none)) hq
    replace h2 := of_decide_eq_true h2
    cases h2
    exact h1
  · obtain ⟨h1, h2, h3⟩ := C33_declared root target t deps hn
    exact ⟨fun p u => (h2 p u).2, fun u => (h3 u).2, h1⟩
  · exact decide_eq_true_iff

section
variable {x : Ext} {F : Files}

theorem itemRun_env {incl : Str → Namespaces → List (Name × List Name) → Res SErr PSchema} {base : Str}
    {c : Nd} {s s' : PCtx} (h : ItemRun x F incl base c s s') : s'.env = s.env := by
  cases h with
  | «include» location schema hn hl h =>
    obtain ⟨_, h1, h2, h3, h4⟩ := foldl_addRoot_nss schema.context.elements s
    unfold PCtx.env
    simp only [h1, h2, h3, h4]
  | definition nameAttr root s1 hn ha h =>
    exact ((ParseLaw.all x docLaw_ok _).root trivial (trivial : docLaw.Nm s ⟨nameAttr.value, s.target⟩) h).2.1

theorem parseItems_runs {incl : Str → Namespaces → List (Name × List Name) → Res SErr PSchema} {base : Str}
    (hincl : ∀ path t deps P, t.Reachable → incl path t deps = .ok P → NamesOK t P)
    {cs : List Nd} {s s' : PCtx} (hI : nsLaw.I s) (h : parseItems x F incl base cs s = .ok s') :
    s'.env = s.env ∧ ∀ c ∈ cs, ∃ s1 s2, s1.env = s.env ∧ ItemRun x F incl base c s1 s2 ∧ nsLaw.I s1 ∧
      s.nss.Extends s1.nss ∧ s2.nss.Extends s'.nss := by
  induction cs generalizing s with
  | nil => cases h; exact ⟨rfl, nofun⟩
  | cons c cs ih =>
    obtain ⟨s1, h1, h2⟩ := Res.bind_eq_ok.1 h
    obtain ⟨hI1, hR1⟩ := parseItem_names hincl hI h1
    have hR2 := (parseItems_names hincl hI1 h2).2
    have h1 := parseItem_run h1
    have he := itemRun_env h1
    obtain ⟨h3, h4⟩ := ih hI1 h2
    refine ⟨h3.trans he, ?_⟩
    intro d hd
    rcases List.mem_cons.1 hd with rfl | hd
    · exact ⟨s, s1, rfl, h1, hI, .refl _, hR2.1⟩
    · obtain ⟨a, b, hab, hr, hIa, hx, hy⟩ := h4 d hd
      exact ⟨a, b, hab.trans he, hr, hIa, hR1.1.trans hx, hy⟩

theorem nsLaw_new {root : ElemInfo} {target : Option Str} {t : Namespaces} {deps : List (Name × List Name)} (ht : t.Reachable) :
    nsLaw.I (PCtx.new root target t deps) := by
  cases target with
  | none => exact ⟨ht, trivial, nofun⟩
  | some u => exact ⟨ht.getOrInsert u, ht.knows u, nofun⟩

theorem parseDoc_items {incl : Str → Namespaces → List (Name × List Name) → Res SErr PSchema} {path : Str} {d : XDoc}
    (hincl : ∀ path t deps P, t.Reachable → incl path t deps = .ok P → NamesOK t P)
    {t : Namespaces} {deps : List (Name × List Name)} {P : PSchema} (ht : t.Reachable) (h : parseDoc x F incl path d t deps = .ok P) :
    ∃ s, s = PCtx.new d.root.1 (((Nd.of d.root).attr c!"targetNamespace").map XAttr.value) t deps ∧
      d.root.1.name = ⟨c!"schema", some nsXsd⟩ ∧
      (∃ s', parseItems x F incl (F.parent path) (Nd.of d.root).xsdKids s = .ok s' ∧ P = s'.intoSchema) ∧
      s.nss.Extends P.context.namespaces ∧
      ∀ c ∈ (Nd.of d.root).xsdKids, ∃ s1 s2, s1.env = s.env ∧ ItemRun x F incl (F.parent path) c s1 s2 ∧ nsLaw.I s1 ∧
        s.nss.Extends s1.nss ∧ s2.nss.Extends P.context.namespaces := by
  unfold parseDoc at h
  split at h
  · next P' hh =>
    cases h
    unfold parseSchemaRoot at hh
    split at hh
    · cases hh
    · next hn =>
      obtain ⟨s1, h1, h2⟩ := Res.bind_eq_ok.1 hh
      cases h2
      have hI : nsLaw.I (PCtx.new d.root.1 (((Nd.of d.root).attr c!"targetNamespace").map XAttr.value) t deps) := nsLaw_new ht
      refine ⟨_, rfl, ?_, ⟨s1, h1, rfl⟩, (parseItems_names hincl hI h1).2.1, (parseItems_runs hincl hI h1).2⟩
      simp only [ne_eq, not_or, Classical.not_not] at hn
      revert hn
      show d.root.1.name.ns = _ ∧ d.root.1.name.loc = _ → _
      generalize d.root.1.name = q
      rintro ⟨h1, h2⟩
      cases q
      cases h1
      cases h2
      rfl
  · cases h
  · cases h
  · cases h

/-- A document that is read was parsed successfully. -/
theorem reads_parsed {path q : Str} {d : XDoc} (hr : Reads F path q d) {k : Nat} {t : Namespaces}
    {deps : List (Name × List Name)} {P : PSchema} (ht : t.Reachable) (h : parseFileWith x F k path t deps = .ok P) :
    ∃ k' t' deps' P', t'.Reachable ∧ parseDoc x F (parseFileWith x F k') q d t' deps' = .ok P' ∧
      P'.context.namespaces.Extends P.context.namespaces := by
  have start : ∀ {k path d t deps P}, F.read path = some (.doc d) → parseFileWith x F k path t deps = .ok P →
      ∃ k', parseDoc x F (parseFileWith x F k') path d t deps = .ok P := by
    intro k path d t deps P hf h
    cases k with
    | zero => cases h
    | succ k =>
      unfold parseFileWith at h
      rw [hf] at h
      exact ⟨k, h⟩
  induction hr with
  | here hf =>
    obtain ⟨k', h'⟩ := start hf h
    exact ⟨k', t, deps, P, ht, h', .refl _⟩
  | there hr hc hn hl hf ih =>
    obtain ⟨k', t', deps', P', ht', h', hx⟩ := ih
    obtain ⟨s, _, _, _, _, hitems⟩ := parseDoc_items (parseFileWith_names k') ht' h'
    obtain ⟨s1, s2, _, hrun, hI1, _, hy⟩ := hitems _ hc
    cases hrun with
    | «include» location schema hn' hl' h2 =>
      have : location.value = _ := Option.some.inj ((value_some hl').symm.trans hl)
      rw [this] at h2
      obtain ⟨k'', h''⟩ := start hf h2
      exact ⟨k'', _, _, _, hI1.1, h'', hy.trans hx⟩
    | definition nameAttr root s1 hn' ha h => exact absurd hn hn'



theorem stands_new {root : ElemInfo} {target : Option Str} {t : Namespaces} {deps : List (Name × List Name)} :
    Stands (PCtx.new root target t deps).nss (PCtx.new root target t deps).target target := by
  cases target with
  | none => trivial
  | some u =>
    obtain ⟨n, h1, h2⟩ := t.getOrInsert_get u
    show Stands (t.getOrInsert u).2 (t.getOrInsert u).1 (some u)
    rw [h1]
    exact h2

theorem Stands.mono {t t' : Namespaces} (h : t.Extends t') {n : Namespace} {u : Option Str} (hs : Stands t n u) : Stands t' n u := by
  unfold Stands at hs ⊢
  split at hs
  · trivial
  · exact h.1 _ _ hs
  · exact hs.elim

theorem file_parsed {k : Nat} {path q : Str} {d : XDoc} {P : PSchema} (h : parseFile x F k path = .ok P)
    (hr : Reads F path q d) : ∃ e, EnvOf d.root.1 e ∧ Stands P.context.namespaces e.target (targetOf d) ∧
      ∀ c ∈ (Nd.of d.root).xsdKids,
        (c.name = c!"include" ∨ c.name = c!"import") ∨ ∃ k, topKind c.name = some k ∧ ParsedAs x e k c := by
  obtain ⟨k', t', deps', P', ht', h', hx⟩ := reads_parsed hr ⟨[], rfl⟩ h
  obtain ⟨s, hs, _, _, hy, hitems⟩ := parseDoc_items (parseFileWith_names k') ht' h'
  refine ⟨s.env, hs ▸ envOf_new _ _ _ _, ?_, ?_⟩
  · have h1 : Stands s.nss s.target (targetOf d) := hs ▸ stands_new
    exact (h1.mono hy).mono hx
  · intro c hc
    obtain ⟨s1, s2, he, hrun, _⟩ := hitems c hc
    cases hrun with
    | «include» location schema hn' hl' h2 => exact .inl hn'
    | definition nameAttr root s1 hn' ha h =>
      refine .inr ?_
      unfold Nd.fuel at h
      replace h := parseRoot_run x h
      cases h with
      | element hn h => exact ⟨.topElement, by rw [show c.name = _ from hn]; rfl, kid_fresh hc, _, _, _, _, _, he, h⟩
      | complexType hn h =>
        exact ⟨.complexType true, by rw [show c.name = _ from hn]; rfl, kid_fresh hc, _, _, _, _, _, he, h⟩
      | simpleType hn h =>
        exact ⟨.simpleType true, by rw [show c.name = _ from hn]; rfl, kid_fresh hc, _, _, _, he, h⟩

end

/-- C35 and C36: if a schema is parsed, then in every file that is read, every top-level child is an include, an import, or a
definition; and every node that is interpreted below a definition carries only attributes (without a namespace) and XSD children
that have a meaning. Attributes that are followed by one with the same local name are not covered: see `C35_false`. -/
theorem C35_partial (x : Ext) (F : Files) (k : Nat) (path : Str) (P : PSchema) (h : parseFile x F k path = .ok P)
    (q : Str) (d : XDoc) (hr : Reads F path q d) : ∃ e, EnvOf d.root.1 e ∧ ∀ c ∈ (Nd.of d.root).xsdKids,
      (c.name = c!"include" ∨ c.name = c!"import") ∨
      ∃ kind, topKind c.name = some kind ∧ ∀ kind' nd, Within kind c kind' nd → AttrsOK e kind' nd := by
  obtain ⟨e, he, _, hh⟩ := file_parsed h hr
  refine ⟨e, he, fun c hc => ?_⟩
  rcases hh c hc with h1 | ⟨kind, h1, h2⟩
  · exact .inl h1
  · exact .inr ⟨kind, h1, fun kind' nd hw => parsed_attrs (parsed_within h2 hw)⟩

/-- C35, all attributes that are written down, if no two attributes of an element have the same local name and namespace (which
XML demands): an attribute without a namespace has a meaning, or an attribute with a namespace and the same local name follows. -/
theorem C35_shadowed_partial (x : Ext) (F : Files) (k : Nat) (path : Str) (P : PSchema) (h : parseFile x F k path = .ok P)
    (q : Str) (d : XDoc) (hr : Reads F path q d) : ∃ e, EnvOf d.root.1 e ∧ ∀ c ∈ (Nd.of d.root).xsdKids,
      (c.name = c!"include" ∨ c.name = c!"import") ∨
      ∃ kind, topKind c.name = some kind ∧ ∀ kind' nd, Within kind c kind' nd →
        (kind' = .attribute → nd.value c!"use" ≠ some c!"prohibited") →
        nd.info.attrs.Pairwise (fun a b => a.loc = b.loc → a.ns ≠ b.ns) →
        ∀ l a r, nd.info.attrs = l ++ a :: r → a.ns = none →
          Allowed e kind' nd a.loc ∨ ∃ b ∈ r, b.loc = a.loc ∧ b.ns ≠ none := by
  obtain ⟨e, he, hh⟩ := C35_partial x F k path P h q d hr
  refine ⟨e, he, fun c hc => (hh c hc).imp id ?_⟩
  rintro ⟨kind, h1, h2⟩
  refine ⟨kind, h1, fun kind' nd hw hu hp l a r ha hn => ?_⟩
  by_cases hs : ∃ b ∈ r, b.loc = a.loc
  · obtain ⟨b, hb, hl⟩ := hs
    refine .inr ⟨b, hb, hl, fun hbn => ?_⟩
    rw [ha] at hp
    exact (List.pairwise_cons.1 (List.pairwise_append.1 hp).2.1).1 b hb hl.symm (hn.trans hbn.symm)
  · exact .inl (h2 kind' nd hw hu a ⟨l, r, ha, fun b hb hl => hs ⟨b, hb, hl⟩⟩ hn)

/-- C36: see `C35_partial`. -/
theorem C36 (x : Ext) (F : Files) (k : Nat) (path : Str) (P : PSchema) (h : parseFile x F k path = .ok P)
    (q : Str) (d : XDoc) (hr : Reads F path q d) : ∀ c ∈ (Nd.of d.root).xsdKids,
      (c.name = c!"include" ∨ c.name = c!"import") ∨
      ∃ kind, topKind c.name = some kind ∧ ∀ kind' nd, Within kind c kind' nd → ChildrenOK kind' nd := by
  obtain ⟨e, he, _, hh⟩ := file_parsed h hr
  intro c hc
  rcases hh c hc with h1 | ⟨kind, h1, h2⟩
  · exact .inl h1
  · exact .inr ⟨kind, h1, fun kind' nd hw => parsed_children (parsed_within h2 hw)⟩

/-! ## Namespaces of elements and attributes -/

/-- C51, local elements: an element that is not a reference gets the target namespace iff the document is qualified. -/
theorem C51_local (x : Ext) (k : Nat) (nd : Nd) (parent : Name) (s s' : PCtx) (l : Leaf)
    (h : parseElementChild x k nd parent s = .ok (l, s')) (hr : nd.attr c!"ref" = none) :
    ∃ n, nd.value c!"name" = some n ∧ l.name = ⟨n, if s.isQualified = true then s.target else .none⟩ := by
  have key : ∀ na : XAttr, s.nodeName na.value false = ⟨na.value, if s.isQualified = true then s.target else .none⟩ := by
    intro na
    unfold PCtx.nodeName
    rw [Bool.or_false]
  cases k with
  | zero => cases h
  | succ k =>
    replace h := parseElementChild_run x h
    cases h with
    | ref mn mx at_ n s1 hmn hmx hr' hp ht => rw [hr] at hr'; cases hr'
    | typed mn mx na docs at_ c nd' s' hmn hmx hr hn hd ht' hc hp => exact ⟨_, value_some hn, key na⟩
    | any mn mx na docs hmn hmx hr hn hd' ht hsn hc hp => exact ⟨_, value_some hn, key na⟩
    | inline mn mx na docs v root s1 hmn hmx hr hn hd ht hsc hp hv hroot => exact ⟨_, value_some hn, key na⟩

/-- C51, references: a reference to an element has the name it refers to. -/
theorem C51_ref (x : Ext) (k : Nat) (nd : Nd) (parent : Name) (s s' : PCtx) (l : Leaf) (a : XAttr)
    (h : parseElementChild x k nd parent s = .ok (l, s')) (hr : nd.attr c!"ref" = some a) :
    ∃ s1, getTypeName a s = .ok (.named l.name, s1) := by
  cases k with
  | zero => cases h
  | succ k =>
    replace h := parseElementChild_run x h
    cases h with
    | ref mn mx at_ n s1 hmn hmx hr' hp ht => rw [hr] at hr'; cases hr'; exact ⟨s1, ht⟩
    | typed mn mx na docs at_ c nd' s' hmn hmx hr' hn hd ht' hc hp => rw [hr] at hr'; cases hr'
    | any mn mx na docs hmn hmx hr' hn hd' ht hsn hc hp => rw [hr] at hr'; cases hr'
    | inline mn mx na docs v root s1 hmn hmx hr' hn hd ht hsc hp hv hroot => rw [hr] at hr'; cases hr'

/-- C51, attributes: never in a namespace. -/
theorem C51_attribute (x : Ext) (nd : Nd) (parent : Name) (s s' : PCtx) (a : Attribute)
    (h : parseAttribute x nd parent s = .ok (some a, s')) : a.name.ns = .none ∧ nd.value c!"name" = some a.name.name := by
  replace h := parseAttribute_run x h
  cases h with
  | some nameAttr docs content nd' s' hn hd hc hk' hu hx hp => exact ⟨rfl, value_some hn⟩

/-- C51: in every file that is read, with `t` the id of its target namespace: every interpreted local element that is not a reference has its name in the target namespace if
`elementFormDefault` is `qualified`, and in no namespace otherwise; every interpreted attribute has a name in no namespace. -/
theorem C51 (x : Ext) (F : Files) (k : Nat) (path : Str) (P : PSchema) (h : parseFile x F k path = .ok P)
    (q : Str) (d : XDoc) (hr : Reads F path q d) : ∃ t, Stands P.context.namespaces t (targetOf d) ∧
    ∀ c ∈ (Nd.of d.root).xsdKids, (c.name = c!"include" ∨ c.name = c!"import") ∨
      ∃ kind, topKind c.name = some kind ∧
      (∀ nd, Within kind c .localElement nd → ∃ k parent s l s', parseElementChild x k nd parent s = .ok (l, s') ∧
        (nd.attr c!"ref" = none → ∃ n, nd.value c!"name" = some n ∧
          l.name = ⟨n, if attrOf d.root.1 c!"elementFormDefault" = some c!"qualified" then t else .none⟩)) ∧
      (∀ nd, Within kind c .attribute nd → nd.value c!"use" ≠ some c!"prohibited" →
        ∃ parent s a s', parseAttribute x nd parent s = .ok (some a, s') ∧ a.name.ns = .none ∧ nd.value c!"name" = some a.name.name) := by
  obtain ⟨e, he, hst, hh⟩ := file_parsed h hr
  refine ⟨e.target, hst, fun c hc => ?_⟩
  rcases hh c hc with h1 | ⟨kind, h1, h2⟩
  · exact .inl h1
  · refine .inr ⟨kind, h1, fun nd hw => ?_, fun nd hw hu => ?_⟩
    · obtain ⟨_, _, k, parent, s, l, s', hse, hp⟩ := parsed_within h2 hw
      refine ⟨k, parent, s, l, s', hp, fun hr => ?_⟩
      obtain ⟨n, hn, hl⟩ := C51_local x k nd parent s s' l hp hr
      refine ⟨n, hn, hl.trans ?_⟩
      have ht : s.target = e.target := congrArg Env.target hse
      have hq : s.isQualified = e.isQualified := congrArg Env.isQualified hse
      rw [ht, hq]
      exact congrArg _ (ite_congr (propext he.qualified) (fun _ => rfl) (fun _ => rfl))
    · obtain ⟨_, parent, s, r, s', hse, hp⟩ := parsed_within h2 hw
      cases r with
      | some a => exact ⟨parent, s, a, s', hp, C51_attribute x nd parent s s' a hp⟩
      | none =>
        replace hp := parseAttribute_run x hp
        cases hp with
        | prohibited nameAttr docs content nd' s' hn hd hc hk' hup =>
          rw [attrContent_attr hc] at hup
          exact absurd hup hu

/-- C51, top-level definitions: stored under the name in the target namespace. -/
theorem C51_top (x : Ext) (F : Files) (incl : Str → Namespaces → List (Name × List Name) → Res SErr PSchema) (base : Str)
    (c : Nd) (s s' : PCtx) (hn : c.name ≠ c!"include" ∧ c.name ≠ c!"import") (h : parseItem x F incl base c s = .ok s') :
    ∃ n r, c.value c!"name" = some n ∧ alookup s'.roots ⟨n, s.target⟩ = some r := by
  replace h := parseItem_run h
  cases h with
  | «include» location schema hn' hl' h2 => exact (hn'.elim hn.1 hn.2).elim
  | definition nameAttr root s1 hn' ha h =>
    refine ⟨_, root, value_some ha, ?_⟩
    show alookup (ainsert _ _ _) _ = _
    rw [alookup_ainsert, if_pos rfl]

end Xsd
