import Verif.Spec.Grammar
import Verif.Lemmas.ParseInv
/-!
# Interpreted nodes
-/
namespace Xsd

/-! ## Children -/

theorem rk_mem (n : Str) {ks : List Nd} {c : Nd} (h : c ∈ ks) : (removeKid n ks).1 = some c ∨ c ∈ (removeKid n ks).2 := by
  cases hk : removeKid n ks with
  | mk o rest =>
    cases o with
    | none => rw [(removeKid_none hk).1]; exact .inr h
    | some k =>
      obtain ⟨a, b, h1, h2, _⟩ := removeKid_some hk
      subst h1 h2
      simp only [List.mem_append, List.mem_cons] at h ⊢
      rcases h with h | rfl | h
      · exact .inr (.inl h)
      · exact .inl rfl
      · exact .inr (.inr h)

theorem rk_name {n : Str} {ks : List Nd} {c : Nd} (h : (removeKid n ks).1 = some c) :
    c.info.name = ⟨n, some nsXsd⟩ ∧ c ∈ ks := by
  cases hk : removeKid n ks with
  | mk o rest =>
    rw [hk] at h
    cases h
    obtain ⟨a, b, h1, h2, h3, _⟩ := removeKid_some hk
    exact ⟨h3, by rw [h1]; simp⟩

theorem rk_rest {n : Str} {ks : List Nd} {c : Nd} (h : c ∈ (removeKid n ks).2) : c ∈ ks := by
  cases hk : removeKid n ks with
  | mk o rest =>
    rw [hk] at h
    cases o with
    | none => rw [(removeKid_none hk).1] at h; exact h
    | some k =>
      obtain ⟨a, b, h1, h2, h3, _⟩ := removeKid_some hk
      simp only [h2, List.mem_append] at h
      rw [h1]
      simp only [List.mem_append, List.mem_cons]
      rcases h with h | h
      · exact .inl h
      · exact .inr (.inr h)

theorem rk_none {n : Str} {ks : List Nd} (h : (removeKid n ks).1 = none) :
    (removeKid n ks).2 = ks ∧ ∀ c ∈ ks, c.info.name ≠ ⟨n, some nsXsd⟩ := by
  cases hk : removeKid n ks with
  | mk o rest =>
    rw [hk] at h
    cases h
    exact removeKid_none hk

theorem kid_info {nd c : Nd} {n : Str} (h : c ∈ nd.xsdKids) (hn : c.name = n) : c.info.name = ⟨n, some nsXsd⟩ := by
  obtain ⟨e, _, rfl, hns⟩ := mem_xsdKids h
  revert hn hns
  unfold Nd.name
  generalize (Nd.of e).info.name = q
  intro h1 h2
  cases q
  cases h1
  cases h2
  rfl

theorem name_of_info {c : Nd} {n : Str} (h : c.info.name = ⟨n, some nsXsd⟩) : c.name = n := by
  unfold Nd.name; rw [h]

theorem kid_fresh {nd c : Nd} (h : c ∈ nd.xsdKids) : c.seen = [] := by
  obtain ⟨e, _, rfl, _⟩ := mem_xsdKids h
  rfl

theorem child_none {nd : Nd} {n : Str} (h : nd.child n = none) : ∀ c ∈ nd.xsdKids, c.name ≠ n := by
  intro c hc hn
  obtain ⟨e, he, hce, hns⟩ := mem_xsdKids hc
  have hi := kid_info hc hn
  unfold Nd.child at h
  rw [Option.map_eq_none_iff, List.find?_eq_none] at h
  have hmem : e ∈ elemKids nd.kids := by
    unfold elemKids
    exact List.mem_filterMap.2 ⟨_, he, rfl⟩
  have := h e hmem
  subst hce
  apply this
  unfold Elem.is
  have hi' : e.1.name = ⟨n, some nsXsd⟩ := hi
  rw [hi']
  simp

theorem removeKids_rest {n : Str} {ks : List Nd} (h : (removeKids n ks).2 = []) :
    (removeKids n ks).1 = ks ∧ ∀ c ∈ ks, c.info.name = ⟨n, some nsXsd⟩ := by
  have hall : ∀ c ∈ ks, c.info.name = ⟨n, some nsXsd⟩ := by
    intro c hc
    unfold removeKids at h
    have := List.filter_eq_nil_iff.1 h c hc
    simpa using this
  refine ⟨?_, hall⟩
  unfold removeKids
  rw [List.filter_eq_self]
  intro c hc
  simpa using hall c hc

/-! ## Attributes -/

theorem mem_lastAttrs {as : List XAttr} {a : XAttr} {l r : List XAttr} (h : as = l ++ a :: r) (hr : ∀ b ∈ r, b.loc ≠ a.loc) :
    a ∈ lastAttrs as := by
  subst h
  induction l with
  | nil =>
    rw [List.nil_append]
    unfold lastAttrs
    rw [if_neg]
    · exact .head _
    · intro hh
      obtain ⟨b, hb, hbn⟩ := List.any_eq_true.1 hh
      exact hr b hb (of_decide_eq_true hbn)
  | cons b l ih =>
    rw [List.cons_append]
    unfold lastAttrs
    split
    · exact ih
    · exact .tail _ ih

/-- A node that passed the check has no attribute without a namespace that was not looked at. -/
theorem prevent_seen {nd nd' : Nd} (h : nd.preventUnvisitedAttributes = .ok ()) (hi : nd.info = nd'.info) {a : XAttr}
    (ha : Effective nd' a) (hns : a.ns = none) : a.loc ∈ nd.seen := by
  obtain ⟨l, r, h1, h2⟩ := ha
  unfold Nd.preventUnvisitedAttributes at h
  split at h
  · cases h
  · next hf =>
    have := List.find?_eq_none.1 hf a (mem_lastAttrs (hi ▸ h1) h2)
    by_cases hs : a.loc ∈ nd.seen
    · exact hs
    · exact absurd (decide_eq_true ⟨hns, hs⟩) this

theorem getTypeName_literal {a : XAttr} {s s' : PCtx} {t : LiteralType} (h : getTypeName a s = .ok (.literal t, s')) :
    ∃ n, Denotes s.defaultNs s.docNss a.value n (some nsXsd) := by
  unfold getTypeName at h
  split at h
  · next p n hs =>
    split at h
    · cases h
    · next uri hu =>
      split at h
      · next hx => exact ⟨n, .inl ⟨p, uri, splitn2_prefixed.1 hs, alookup_mem hu, by rw [hx]⟩⟩
      · cases h
  · next n hs =>
    split at h
    · next hd =>
      have hnc : ':' ∉ a.value := by
        intro hc
        obtain ⟨p, m, hp⟩ := firstColon hc
        rw [splitn2_prefixed.2 hp] at hs
        cases hs
      exact ⟨a.value, .inr ⟨hnc, rfl, hd.symm⟩⟩
    · cases h

/-! ## The document's environment does not change -/

/-- The law for the parts of the context that do not change. -/
def docLaw : ParseLaw where
  I _ := True
  R s s' := s'.env = s.env
  Nm _ _ := True
  Ref _ _ _ := True
  refl _ := rfl
  trans h h' := h'.trans h
  nm_mono _ _ := trivial
  ref_mono _ _ := trivial

theorem getTypeName_env {a : XAttr} {s s' : PCtx} {c : LeafContent} (h : getTypeName a s = .ok (c, s')) : s'.env = s.env := by
  unfold getTypeName at h
  split at h
  · split at h
    · cases h
    · split at h
      · rw [P.lift_ok] at h; rw [h.2]
      · cases h; rfl
  · split at h
    · rw [P.lift_ok] at h; rw [h.2]
    · cases h; rfl

theorem docLaw_ok : docLaw.Ok where
  typeName := fun _ h => ⟨trivial, getTypeName_env h⟩
  discover := fun _ _ _ => ⟨trivial, rfl, trivial, trivial⟩
  node := fun _ _ => trivial
  plain := fun _ _ => trivial
  add := fun _ _ _ => ⟨trivial, rfl, trivial⟩
  nodeName := by
    intro s s' v h
    have h1 : s'.target = s.target := congrArg Env.target h
    have h2 : s'.isQualified = s.isQualified := congrArg Env.isQualified h
    unfold PCtx.nodeName
    rw [h1, h2]

/-! ## Interpreted nodes -/

section
variable (x : Ext) (e : Env)

/-- The node was interpreted successfully in a role, in a context with the environment `e`. -/
def ParsedAs : Kind → Nd → Prop
  | .topElement, nd => nd.seen = [] ∧ ∃ k parent s r s', s.env = e ∧ parseElementRoot x k (nd.see c!"name") parent s = .ok (r, s')
  | .localElement, nd =>
    nd.seen = [] ∧ nd.name = c!"element" ∧ ∃ k parent s r s', s.env = e ∧ parseElementChild x k nd parent s = .ok (r, s')
  | .complexType top, nd => nd.seen = [] ∧ ∃ k parent s r s', s.env = e ∧
    parseComplexType x k (if top then nd.see c!"name" else nd) parent s = .ok (r, s')
  | .simpleType top, nd => nd.seen = [] ∧ ∃ s r s', s.env = e ∧ SimpleTypeRun x (if top then nd.see c!"name" else nd) s r s'
  | .simpleContent, nd => nd.seen = [] ∧ ∃ parent s r s', s.env = e ∧ SimpleContentRun x nd parent s r s'
  | .complexContent, nd => nd.seen = [] ∧ ∃ k parent s r s', s.env = e ∧ parseComplexContent x k nd parent s = .ok (r, s')
  | .simpleExtension, nd =>
    (removeKids c!"attribute" nd.xsdKids).2 = [] ∧
    ∃ parent s r s', s.env = e ∧ AttributesRun x parent (removeKids c!"attribute" nd.xsdKids).1 s r s'
  | .complexExtension, nd =>
    (removeKids c!"attribute" (removeKid c!"sequence" nd.xsdKids).2).2 = [] ∧
    (∃ parent s r s', s.env = e ∧ AttributesRun x parent (removeKids c!"attribute" (removeKid c!"sequence" nd.xsdKids).2).1 s r s') ∧
    ∃ k base parent s r s', s.env = e ∧ parseExtension x k (removeKid c!"sequence" nd.xsdKids).1 base parent s = .ok (r, s')
  | .sequence occ, nd => nd.seen = [] ∧ ∃ k parent s r s', s.env = e ∧ parseSequence x k (nd.sees occ) parent s = .ok (r, s')
  | .choice occ, nd => nd.seen = [] ∧ ∃ k parent s r s', s.env = e ∧ parseChoice x k (nd.sees occ) parent s = .ok (r, s')
  | .attribute, nd => nd.seen = [] ∧ ∃ parent s r s', s.env = e ∧ parseAttribute x nd parent s = .ok (r, s')
  | .restriction, nd => ∃ fs, parseFacets x nd.xsdKids = .ok fs
  | .annotation, nd => nd.seen = [] ∧ ∃ docs, parseAnnotation1 x nd = .ok docs

variable {x e}

theorem typeAttr_seen {nd nd' : Nd} {a : XAttr} {parent : Name} {s s' : PCtx} {c : LeafContent}
    (h : TypeAttrRun nd a parent s c nd' s') (he : s.env = e) : nd'.info = nd.info ∧
      ∀ n ∈ nd'.seen, n ∈ nd.seen ∨ (n = c!"fixed" ∧ ∃ n, Denotes e.defaultNs e.docNss a.value n (some nsXsd)) := by
  subst he
  cases h with
  | named n s1 h => exact ⟨rfl, fun _ h => .inl h⟩
  | fixed t s1 f h hf =>
    refine ⟨rfl, fun n hn => ?_⟩
    rcases List.mem_cons.1 hn with rfl | hn
    · exact .inr ⟨rfl, getTypeName_literal h⟩
    · exact .inl hn
  | literal t s1 h hf =>
    refine ⟨rfl, fun n hn => ?_⟩
    rcases List.mem_cons.1 hn with rfl | hn
    · exact .inr ⟨rfl, getTypeName_literal h⟩
    · exact .inl hn

theorem value_some {nd : Nd} {n : Str} {a : XAttr} (h : nd.attr n = some a) : nd.value n = some a.value := by
  unfold Nd.value; rw [h]; rfl

theorem effective_attr {nd : Nd} {a : XAttr} (h : Effective nd a) : nd.attr a.loc ≠ none := by
  obtain ⟨l, r, h1, _⟩ := h
  unfold Nd.attr
  intro hn
  have := List.find?_eq_none.1 hn a (by rw [h1]; simp)
  exact this (decide_eq_true rfl)

/-- Interpreted nodes carry only attributes with a meaning. -/
theorem parsed_attrs {k : Kind} {nd : Nd} (h : ParsedAs x e k nd) : AttrsOK e k nd := by
  intro hk a ha hns
  cases k with
  | topElement =>
    obtain ⟨hs, k, parent, s, r, s', he, h⟩ := h
    cases k with
    | zero => cases h
    | succ k =>
      have hfin : ∀ n ∈ (nd.see c!"name" |>.see c!"type").seen, n = c!"name" ∨ n = c!"type" := by
        intro n hn
        simp only [Nd.see, hs, List.mem_cons, List.not_mem_nil, or_false] at hn
        exact hn.symm
      replace h := parseElementRoot_run x h
      cases h with
      | typed docs at_ c nd' s' hd ht hc hp hk =>
        obtain ⟨h1, h2⟩ := typeAttr_seen hc he
        rcases h2 _ (prevent_seen hp (h1.trans rfl) ha hns) with hin | ⟨hf, n, hden⟩
        · rcases hfin _ hin with h | h
          · exact .inl h
          · exact .inr (.inl h)
        · exact .inr (.inr ⟨hf, at_.value, n, value_some ht, hden⟩)
      | complexType docs child root s' hd ht hp hk h =>
        rcases hfin _ (prevent_seen hp rfl ha hns) with h | h
        · exact .inl h
        · exact .inr (.inl h)
      | simpleType docs child root s' hd ht hp hn hk h =>
        rcases hfin _ (prevent_seen hp rfl ha hns) with h | h
        · exact .inl h
        · exact .inr (.inl h)
  | localElement =>
    obtain ⟨hs, hname, k, parent, s, r, s', he, h⟩ := h
    cases k with
    | zero => cases h
    | succ k =>
      have hfin : nd.attr c!"ref" = none → ∀ n ∈ (nd.sees childSeen).seen, n = a.loc → Allowed e .localElement nd n := by
        intro hr n hn hna
        simp only [Nd.sees, childSeen, hs, List.append_nil, List.mem_cons, List.not_mem_nil, or_false] at hn
        rcases hn with h | h | h | h | h | h | h
        · exact .inr (.inr (.inr ⟨hr, .inl (by rw [h]; decide)⟩))
        · exact .inr (.inr (.inr ⟨hr, .inl (by rw [h]; decide)⟩))
        · exact .inr (.inr (.inr ⟨hr, .inl (by rw [h]; decide)⟩))
        · exact .inr (.inr (.inr ⟨hr, .inl (by rw [h]; decide)⟩))
        · exact absurd hr (by rw [← h, hna]; exact effective_attr ha)
        · exact .inr (.inl h)
        · exact .inl h
      replace h := parseElementChild_run x h
      cases h with
      | ref mn mx at_ n s1 hmn hmx hr hp ht =>
        have hin := prevent_seen hp rfl ha hns
        simp only [Nd.sees, refSeen, hs, List.append_nil, List.mem_cons, List.not_mem_nil, or_false] at hin
        rcases hin with h | h | h
        · exact .inr (.inr (.inl ⟨by rw [hr]; simp, h⟩))
        · exact .inr (.inl h)
        · exact .inl h
      | typed mn mx na docs at_ c nd' s' hmn hmx hr hn hd ht hc hp =>
        obtain ⟨h1, h2⟩ := typeAttr_seen hc he
        rcases h2 _ (prevent_seen hp (h1.trans rfl) ha hns) with hin | ⟨hf, n, hden⟩
        · exact hfin hr _ hin rfl
        · exact .inr (.inr (.inr ⟨hr, .inr ⟨hf, at_.value, n, value_some ht, hden⟩⟩))
      | any mn mx na docs hmn hmx hr hn hd ht hsn hc hp => exact hfin hr _ (prevent_seen hp rfl ha hns) rfl
      | inline mn mx na docs v root s1 hmn hmx hr hn hd ht hsc hp hv hroot => exact hfin hr _ (prevent_seen hp rfl ha hns) rfl
  | complexType top =>
    obtain ⟨hs, k, parent, s, r, s', he, h⟩ := h
    cases k with
    | zero => cases h
    | succ k =>
      have hp : ((if top then nd.see c!"name" else nd).see c!"mixed").preventUnvisitedAttributes = .ok () := by
        replace h := parseComplexType_run x h
        cases h <;> assumption
      cases top with
      | true =>
        have hin := prevent_seen hp rfl ha hns
        simp only [Nd.see, hs, if_true, List.mem_cons, List.not_mem_nil, or_false] at hin
        rcases hin with h | h
        · exact .inl h
        · exact .inr ⟨rfl, h⟩
      | false =>
        have hin := prevent_seen hp rfl ha hns
        simp only [Nd.see, hs, Bool.false_eq_true, if_false, List.mem_cons, List.not_mem_nil, or_false] at hin
        exact .inl hin
  | simpleType top =>
    obtain ⟨hs, s, r, s', he, h⟩ := h
    cases h with
    | mk docs restriction rest attr t s' fs hp hd hr hat ht hc hf =>
      cases top with
      | true =>
        have hin := prevent_seen hp rfl ha hns
        simp only [Nd.see, hs, if_true, List.mem_cons, List.not_mem_nil, or_false] at hin
        exact ⟨rfl, hin⟩
      | false =>
        have hin := prevent_seen hp rfl ha hns
        simp only [hs, Bool.false_eq_true, if_false, List.not_mem_nil] at hin
  | simpleContent =>
    obtain ⟨hs, parent, s, r, s', he, h⟩ := h
    have hp : nd.preventUnvisitedAttributes = .ok () := by cases h <;> assumption
    have hin := prevent_seen hp rfl ha hns
    rw [hs] at hin
    cases hin
  | complexContent =>
    obtain ⟨hs, k, parent, s, r, s', he, h⟩ := h
    cases k with
    | zero => cases h
    | succ k =>
      replace h := parseComplexContent_run x h
      have hp : nd.preventUnvisitedAttributes = .ok () := by cases h; assumption
      have hin := prevent_seen hp rfl ha hns
      rw [hs] at hin
      cases hin
  | simpleExtension => trivial
  | complexExtension => trivial
  | sequence occ =>
    obtain ⟨hs, k, parent, s, r, s', he, h⟩ := h
    cases k with
    | zero => cases h
    | succ k =>
      have hin := prevent_seen (parseSequence_run x h).1 rfl ha hns
      simp only [Nd.sees, hs, List.append_nil] at hin
      exact hin
  | choice occ =>
    obtain ⟨hs, k, parent, s, r, s', he, h⟩ := h
    cases k with
    | zero => cases h
    | succ k =>
      have hin := prevent_seen (parseChoice_run x h).1 rfl ha hns
      simp only [Nd.sees, hs, List.append_nil] at hin
      exact hin
  | «attribute» =>
    obtain ⟨hs, parent, s, r, s', he, h⟩ := h
    replace h := parseAttribute_run x h
    cases h with
    | prohibited nameAttr docs content nd' s' hn hd hc hk' hu =>
      rw [attrContent_attr hc] at hu
      exact absurd hu (hk rfl)
    | some nameAttr docs content nd' s' hn hd hc hk' hu hx hp =>
      have hout : ∀ n, n = c!"use" ∨ n = c!"default" ∨ n = c!"name" → Allowed e .attribute nd n := by
        rintro n (rfl | rfl | rfl) <;> exact .inl (by decide)
      have hfin : nd'.info = nd.info → (∀ n ∈ nd'.seen, Allowed e .attribute nd n) → Allowed e .attribute nd a.loc := by
        intro hi hsn
        rcases List.mem_cons.1 (prevent_seen hp hi ha hns) with h | h
        · exact hout _ (.inl h)
        · rcases List.mem_cons.1 h with h | h
          · exact hout _ (.inr (.inl h))
          · exact hsn _ h
      have hname : ∀ n ∈ (nd.see c!"name").seen, Allowed e .attribute nd n := by
        intro n hn
        simp only [Nd.see, hs, List.mem_cons, List.not_mem_nil, or_false] at hn
        exact hout n (.inr (.inr hn))
      generalize hq : (removeKid c!"simpleType" (removeKid c!"annotation" nd.xsdKids).2).1 = q at hc
      cases hc with
      | plain c t rs docs s' h => exact hfin rfl hname
      | inline c root s1 v h hv => exact hfin rfl hname
      | typed at_ c nd' s' hat h =>
        obtain ⟨h1, h2⟩ := typeAttr_seen h he
        have hno : ∀ c ∈ nd.xsdKids, c.name ≠ c!"simpleType" := by
          intro c hc hcn
          have hci := kid_info hc hcn
          rcases rk_mem c!"annotation" hc with h | h
          · have := (rk_name h).1
            rw [hci] at this
            exact absurd this (by decide)
          · exact (rk_none hq).2 c h hci
        refine hfin (h1.trans rfl) (fun n hn => ?_)
        rcases h2 n hn with hin | ⟨hf, m, hden⟩
        · rcases List.mem_cons.1 hin with h | h
          · exact .inr ⟨hno, .inl h⟩
          · exact hname n h
        · exact .inr ⟨hno, .inr ⟨hf, at_.value, m, value_some hat, hden⟩⟩
  | restriction => trivial
  | annotation =>
    obtain ⟨hs, docs, h⟩ := h
    unfold parseAnnotation1 at h
    obtain ⟨_, _, h⟩ := Res.bind_eq_ok.1 h
    obtain ⟨_, _, h⟩ := Res.bind_eq_ok.1 h
    obtain ⟨_, hp, h⟩ := Res.bind_eq_ok.1 h
    have hin := prevent_seen hp rfl ha hns
    rw [hs] at hin
    cases hin

/-! ### Children -/

theorem parsed_annotation {nd c : Nd} {docs : Option Str} (hd : parseAnnotation x (removeKid c!"annotation" nd.xsdKids).1 = .ok docs)
    (hc : (removeKid c!"annotation" nd.xsdKids).1 = some c) : ParsedAs x e .annotation c := by
  rw [hc] at hd
  exact ⟨kid_fresh (rk_name hc).2, docs, hd⟩

/-- Children with another name than the one removed remain. -/
theorem rk_keep {n : Str} {ks : List Nd} {c : Nd} (h : c ∈ ks) (hn : c.name ≠ n) : c ∈ (removeKid n ks).2 := by
  rcases rk_mem n h with h | h
  · exact absurd (name_of_info (rk_name h).1) hn
  · exact h

/-- The only child left. -/
theorem rk_only {n : Str} {ks : List Nd} {k c : Nd} (h : removeKid n ks = (some k, [])) (hc : c ∈ ks) :
    c = k ∧ c.info.name = ⟨n, some nsXsd⟩ := by
  rcases rk_mem n hc with h' | h'
  · rw [h] at h'
    have h2 := (rk_name (by rw [h] : (removeKid n ks).1 = some k)).1
    exact ⟨(Option.some.inj h').symm, (Option.some.inj h') ▸ h2⟩
  · rw [h] at h'; cases h'

theorem attributes_parsed {parent : Name} {cs : List Nd} {s s' : PCtx} {as : List Attribute}
    (h : AttributesRun x parent cs s as s') (he : s.env = e) : ∀ c ∈ cs, ∃ s r s', s.env = e ∧ parseAttribute x c parent s = .ok (r, s') := by
  induction h with
  | nil s => nofun
  | skip c cs s s1 as s' h hs ih =>
    have h1 := (ParseLaw.attribute_inv x docLaw_ok trivial (parseAttribute_run x h)).2.1
    intro d hd
    rcases List.mem_cons.1 hd with rfl | hd
    · exact ⟨s, _, s1, he, h⟩
    · exact ih ((show s1.env = s.env from h1).trans he) d hd
  | cons c cs s s1 a as s' h hs ih =>
    have h1 := (ParseLaw.attribute_inv x docLaw_ok trivial (parseAttribute_run x h)).2.1
    intro d hd
    rcases List.mem_cons.1 hd with rfl | hd
    · exact ⟨s, _, s1, he, h⟩
    · exact ih ((show s1.env = s.env from h1).trans he) d hd

theorem leaves_parsed {Q : Nd → PCtx → Option Leaf → PCtx → Prop}
    (hQ : ∀ c s l s', Q c s l s' → s'.env = s.env) {cs : List Nd} {s s' : PCtx} {ls : List Leaf}
    (h : LeavesRun Q cs s ls s') (he : s.env = e) : ∀ c ∈ cs, ∃ s l s', s.env = e ∧ Q c s l s' := by
  induction h with
  | nil s => nofun
  | skip c cs s s1 as s' h hs ih =>
    have h1 := hQ _ _ _ _ h
    intro d hd
    rcases List.mem_cons.1 hd with rfl | hd
    · exact ⟨s, _, s1, he, h⟩
    · exact ih (h1.trans he) d hd
  | cons c cs s s1 a as s' h hs ih =>
    have h1 := hQ _ _ _ _ h
    intro d hd
    rcases List.mem_cons.1 hd with rfl | hd
    · exact ⟨s, _, s1, he, h⟩
    · exact ih (h1.trans he) d hd

theorem addGroup_env {parent : Name} {members : List Leaf} {suffix : List Name} {root : Root} {docs : Option Str}
    {mn : Nat} {mx : MaxOccurs} {s s' : PCtx} {l : Leaf} (h : addGroup x parent members suffix root docs mn mx s = .ok (l, s')) :
    s'.env = s.env := by
  obtain ⟨_, _, _, _, rfl, _⟩ := addGroup_ok h
  rfl

theorem seqItem_env {k : Nat} {c : Nd} {parent : Name} {s s' : PCtx} {l : Option Leaf} (h : SeqItemRun x k c parent s l s') :
    s'.env = s.env := by
  have A := ParseLaw.all x docLaw_ok k
  cases h with
  | element l s' hn h => exact (A.child trivial trivial h).2.1
  | choice mn mx vs s1 l s' hn hmn hmx h hl =>
    exact (addGroup_env hl).trans (A.choice trivial (trivial : docLaw.Nm s parent) h).2.1
  | sequence docs mn ls s1 l s' hn hd hmn h hl =>
    exact (addGroup_env hl).trans (A.sequence trivial (trivial : docLaw.Nm s parent) h).2.1
  | annotation hn => rfl

theorem choiceItem_env {k : Nat} {c : Nd} {parent : Name} {s s' : PCtx} {l : Option Leaf} (h : ChoiceItemRun x k c parent s l s') :
    s'.env = s.env := by
  have A := ParseLaw.all x docLaw_ok k
  cases h with
  | element l s' hn h => exact (A.child trivial trivial h).2.1
  | sequence docs mn mx ls s1 l s' hn hd hmn hmx h hl =>
    exact (addGroup_env hl).trans (A.sequence trivial (trivial : docLaw.Nm s parent) h).2.1
  | annotation hn => rfl

/-- The children of an interpreted top-level element, or local element with an anonymous type: each is the annotation, or the
anonymous type. -/
theorem elementRoot_kids {k : Nat} {nd : Nd} {parent : Name} {s s' : PCtx} {r : Root} (he : s.env = e)
    (h : parseElementRoot x k nd parent s = .ok (r, s')) : ∀ c ∈ nd.xsdKids,
      (c.name = c!"annotation" ∧ ParsedAs x e .annotation c) ∨
      (nd.attr c!"type" = none ∧ c.name = c!"complexType" ∧ ParsedAs x e (.complexType false) c) ∨
      (nd.attr c!"type" = none ∧ c.name = c!"simpleType" ∧ ParsedAs x e (.simpleType false) c) := by
  intro c hc
  cases k with
  | zero => cases h
  | succ k =>
    replace h := parseElementRoot_run x h
    have hann : ∀ {docs}, parseAnnotation x (removeKid c!"annotation" nd.xsdKids).1 = .ok docs →
        (c.name = c!"annotation" ∧ ParsedAs x e .annotation c) ∨ c ∈ (removeKid c!"annotation" nd.xsdKids).2 := by
      intro docs hd
      rcases rk_mem c!"annotation" hc with h | h
      · exact .inl ⟨name_of_info (rk_name h).1, parsed_annotation hd h⟩
      · exact .inr h
    cases h with
    | typed docs a ct nd' s' hd ht hct hp hk =>
      rcases hann hd with h | h
      · exact .inl h
      · rw [hk] at h; cases h
    | complexType docs child root s' hd ht hp hk h =>
      rcases hann hd with h' | h'
      · exact .inl h'
      · obtain ⟨rfl, hi⟩ := rk_only hk h'
        exact .inr (.inl ⟨ht, name_of_info hi, kid_fresh hc, k, parent, s, _, _, he, h⟩)
    | simpleType docs child root s' hd ht hp hn hk h =>
      rcases hann hd with h' | h'
      · exact .inl h'
      · obtain ⟨rfl, hi⟩ := rk_only hk h'
        exact .inr (.inr ⟨ht, name_of_info hi, kid_fresh hc, s, _, _, he, h⟩)

theorem sees_nil (nd : Nd) : nd.sees [] = nd := rfl

theorem particle_kids {k : Nat} {nd : Nd} {kids rest : List Nd} {parent : Name} {s s' : PCtx} {r : Option ElementContent}
    (he : s.env = e) (hsub : ∀ c ∈ kids, c ∈ nd.xsdKids)
    (h : parseParticle x k kids parent s = .ok ((r, rest), s')) : ∀ c ∈ kids,
      c ∈ rest ∨
      ((c.name = c!"sequence" ∨ c.name = c!"all") ∧ ParsedAs x e (.sequence minMax) c) ∨
      (c.name = c!"choice" ∧ ParsedAs x e (.choice []) c) := by
  intro c hc
  cases k with
  | zero => cases h
  | succ k =>
    replace h := parseParticle_run x h
    have hsa : ∀ {child rest'}, sequenceOrAll kids = (some child, rest') →
        c ∈ rest' ∨ (c = child ∧ (c.name = c!"sequence" ∨ c.name = c!"all")) := by
      intro child rest' hk
      unfold sequenceOrAll at hk
      split at hk
      · next c' r' hk' =>
        cases hk
        rcases rk_mem c!"sequence" hc with h | h
        · have := (rk_name h).1
          rw [hk'] at h
          exact .inr ⟨(Option.some.inj h).symm, .inl (name_of_info this)⟩
        · rw [hk'] at h; exact .inl h
      · next hk' =>
        rcases rk_mem c!"all" hc with h | h
        · have := (rk_name h).1
          rw [hk] at h
          exact .inr ⟨(Option.some.inj h).symm, .inr (name_of_info this)⟩
        · rw [hk] at h; exact .inl h
    cases h with
    | group child rest mn mx leaves s1 leaf s' hk hmn hmx h hg hl =>
      rcases hsa hk with h' | ⟨rfl, h'⟩
      · exact .inl h'
      · exact .inr (.inl ⟨h', kid_fresh (hsub c hc), k, parent, s, _, _, he, h⟩)
    | sequence child rest mn mx leaves s' hk hmn hmx h hg =>
      rcases hsa hk with h' | ⟨rfl, h'⟩
      · exact .inl h'
      · exact .inr (.inl ⟨h', kid_fresh (hsub c hc), k, parent, s, _, _, he, h⟩)
    | choice child rest variants s1 v hn hk h hv =>
      rcases rk_mem c!"choice" hc with h' | h'
      · have := (rk_name h').1
        rw [hk] at h'
        obtain rfl : child = c := Option.some.inj h'
        exact .inr (.inr ⟨name_of_info this, kid_fresh (hsub _ hc), k, parent, s, _, _, he, h⟩)
      · rw [hk] at h'; exact .inl h'
    | none hn hk => exact .inl hc

/-- Every child of an interpreted complex type was interpreted. -/
theorem complexType_kids {k : Nat} {nd : Nd} {parent : Name} {s s' : PCtx} {r : Root} (he : s.env = e)
    (h : parseComplexType x k nd parent s = .ok (r, s')) : ∀ c ∈ nd.xsdKids,
      (c.name = c!"annotation" ∧ ParsedAs x e .annotation c) ∨
      (c.name = c!"simpleContent" ∧ ParsedAs x e .simpleContent c) ∨
      (c.name = c!"complexContent" ∧ ParsedAs x e .complexContent c) ∨
      ((c.name = c!"sequence" ∨ c.name = c!"all") ∧ ParsedAs x e (.sequence minMax) c) ∨
      (c.name = c!"choice" ∧ ParsedAs x e (.choice []) c) ∨
      (c.name = c!"attribute" ∧ ParsedAs x e .attribute c) := by
  intro c hc
  cases k with
  | zero => cases h
  | succ k =>
    replace h := parseComplexType_run x h
    have hann : ∀ {docs}, parseAnnotation x (removeKid c!"annotation" nd.xsdKids).1 = .ok docs →
        (c.name = c!"annotation" ∧ ParsedAs x e .annotation c) ∨ c ∈ (removeKid c!"annotation" nd.xsdKids).2 := by
      intro docs hd
      rcases rk_mem c!"annotation" hc with h | h
      · exact .inl ⟨name_of_info (rk_name h).1, parsed_annotation hd h⟩
      · exact .inr h
    cases h with
    | simpleContent docs child d s' hm hp hd hk h =>
      rcases hann hd with h' | h'
      · exact .inl h'
      · obtain ⟨rfl, hi⟩ := rk_only hk h'
        exact .inr (.inl ⟨name_of_info hi, kid_fresh hc, parent, s, _, _, he, h⟩)
    | complexContent docs child d s' hm hp hd hn hk h =>
      rcases hann hd with h' | h'
      · exact .inl h'
      · obtain ⟨rfl, hi⟩ := rk_only hk h'
        exact .inr (.inr (.inl ⟨name_of_info hi, kid_fresh hc, k, parent, s, _, _, he, h⟩))
    | particle docs content rest s1 attributes s' hm hp hd hn hn2 h ha hk =>
      rcases hann hd with h' | h'
      · exact .inl h'
      · rcases particle_kids he (fun c hc => rk_rest hc) h c h' with h2 | h2 | h2
        · obtain ⟨hr1, hr2⟩ := removeKids_rest hk
          have he1 : s1.env = e := ((ParseLaw.all x docLaw_ok k).particle trivial (trivial : docLaw.Nm s parent) h).2.1.trans he
          rw [hr1] at ha
          obtain ⟨s2, r2, s3, he2, hr⟩ := attributes_parsed ha he1 c h2
          exact .inr (.inr (.inr (.inr (.inr ⟨name_of_info (hr2 c h2), kid_fresh hc, parent, s2, r2, s3, he2, hr⟩))))
        · exact .inr (.inr (.inr (.inl h2)))
        · exact .inr (.inr (.inr (.inr (.inl h2))))

theorem simpleType_kids {nd : Nd} {s s' : PCtx} {r : Root} (h : SimpleTypeRun x nd s r s') : ∀ c ∈ nd.xsdKids,
      (c.name = c!"annotation" ∧ ParsedAs x e .annotation c) ∨ (c.name = c!"restriction" ∧ ParsedAs x e .restriction c) := by
  intro c hc
  cases h with
  | mk docs restriction rest attr t s' fs hp hd hr hat ht hcc hf =>
    rcases rk_mem c!"annotation" hc with h | h
    · exact .inl ⟨name_of_info (rk_name h).1, parsed_annotation hd h⟩
    · subst hcc
      obtain ⟨rfl, hi⟩ := rk_only hr h
      exact .inr ⟨name_of_info hi, fs, hf⟩

theorem attribute_kids {nd : Nd} {parent : Name} {s s' : PCtx} {r : Option Attribute} (he : s.env = e)
    (h : parseAttribute x nd parent s = .ok (r, s')) : ∀ c ∈ nd.xsdKids,
      (c.name = c!"annotation" ∧ ParsedAs x e .annotation c) ∨ (c.name = c!"simpleType" ∧ ParsedAs x e (.simpleType false) c) := by
  intro c hc
  have key : ∀ {docs nameAttr content nd' s'} (_ : parseAnnotation x (removeKid c!"annotation" nd.xsdKids).1 = .ok docs)
      (_ : AttrContentRun x (nd.see c!"name") ⟨nameAttr, .none⟩ parent s
        (removeKid c!"simpleType" (removeKid c!"annotation" nd.xsdKids).2).1 content nd' s')
      (_ : (removeKid c!"simpleType" (removeKid c!"annotation" nd.xsdKids).2).2 = []),
      (c.name = c!"annotation" ∧ ParsedAs x e .annotation c) ∨ (c.name = c!"simpleType" ∧ ParsedAs x e (.simpleType false) c) := by
    intro docs nameAttr content nd' s' hd hcr hk
    rcases rk_mem c!"annotation" hc with h | h
    · exact .inl ⟨name_of_info (rk_name h).1, parsed_annotation hd h⟩
    · rcases rk_mem c!"simpleType" h with h2 | h2
      · refine .inr ⟨name_of_info (rk_name h2).1, kid_fresh hc, ?_⟩
        rw [h2] at hcr
        cases hcr with
        | plain c t rs docs s' h => exact ⟨s, _, _, he, h⟩
        | inline c root s1 v h hv => exact ⟨s, _, _, he, h⟩
      · rw [hk] at h2; cases h2
  replace h := parseAttribute_run x h
  cases h with
  | prohibited nameAttr docs content nd' s' hn hd hc hk' hu => exact key hd hc hk'
  | some nameAttr docs content nd' s' hn hd hc hk' hu hx hp => exact key hd hc hk'

theorem sequence_kids {k : Nat} {occ : List Str} {nd : Nd} {parent : Name} {s s' : PCtx} {ls : List Leaf} (he : s.env = e)
    (h : parseSequence x k (nd.sees occ) parent s = .ok (ls, s')) : ∀ c ∈ nd.xsdKids,
      c.name = c!"annotation" ∨ (c.name = c!"element" ∧ ParsedAs x e .localElement c) ∨
      (c.name = c!"choice" ∧ ParsedAs x e (.choice minMax) c) ∨
      (c.name = c!"sequence" ∧ ParsedAs x e (.sequence [c!"minOccurs"]) c) := by
  intro c hc
  cases k with
  | zero => cases h
  | succ k =>
    obtain ⟨s1, l, s2, he1, hr⟩ := leaves_parsed (fun _ _ _ _ h => seqItem_env h) (parseSequence_run x h).2 he c hc
    cases hr with
    | element l s' hn h => exact .inr (.inl ⟨hn, kid_fresh hc, hn, k, parent, s1, _, _, he1, h⟩)
    | choice mn mx vs s1 l s' hn hmn hmx h hl => exact .inr (.inr (.inl ⟨hn, kid_fresh hc, k, parent, _, _, _, he1, h⟩))
    | sequence docs mn ls s1 l s' hn hd hmn h hl => exact .inr (.inr (.inr ⟨hn, kid_fresh hc, k, parent, _, _, _, he1, h⟩))
    | annotation hn => exact .inl hn

theorem choice_kids {k : Nat} {occ : List Str} {nd : Nd} {parent : Name} {s s' : PCtx} {ls : List Leaf} (he : s.env = e)
    (h : parseChoice x k (nd.sees occ) parent s = .ok (ls, s')) : ∀ c ∈ nd.xsdKids,
      c.name = c!"annotation" ∨ (c.name = c!"element" ∧ ParsedAs x e .localElement c) ∨
      (c.name = c!"sequence" ∧ ParsedAs x e (.sequence minMax) c) := by
  intro c hc
  cases k with
  | zero => cases h
  | succ k =>
    obtain ⟨s1, l, s2, he1, hr⟩ := leaves_parsed (fun _ _ _ _ h => choiceItem_env h) (parseChoice_run x h).2 he c hc
    cases hr with
    | element l s' hn h => exact .inr (.inl ⟨hn, kid_fresh hc, hn, k, parent, s1, _, _, he1, h⟩)
    | sequence docs mn mx ls s1 l s' hn hd hmn hmx h hl => exact .inr (.inr ⟨hn, kid_fresh hc, k, parent, _, _, _, he1, h⟩)
    | annotation hn => exact .inl hn

/-- The children of a local element with an anonymous type. -/
theorem localElement_kids {nd : Nd} (h : ParsedAs x e .localElement nd) (hr : nd.attr c!"ref" = none)
    (ht : nd.attr c!"type" = none) {d : Nd} (hd : d ∈ nd.xsdKids) (hdn : d.name = c!"complexType" ∨ d.name = c!"simpleType") :
    ∀ c ∈ nd.xsdKids,
      (c.name = c!"annotation" ∧ ParsedAs x e .annotation c) ∨
      (c.name = c!"complexType" ∧ ParsedAs x e (.complexType false) c) ∨
      (c.name = c!"simpleType" ∧ ParsedAs x e (.simpleType false) c) := by
  obtain ⟨hs, hname, k, parent, s, r, s', he, h⟩ := h
  cases k with
  | zero => cases h
  | succ k =>
    replace h := parseElementChild_run x h
    cases h with
    | ref mn mx at_ n s1 hmn hmx hr' hp ht => rw [hr] at hr'; cases hr'
    | typed mn mx na docs at_ c nd' s' hmn hmx hr hn hd ht' hc hp => rw [ht] at ht'; cases ht'
    | any mn mx na docs hmn hmx hr hn hd' ht hsn hc hp =>
      rcases hdn with h | h
      · exact absurd h (child_none hc d hd)
      · exact absurd h (child_none hsn d hd)
    | inline mn mx na docs v root s1 hmn hmx hr hn hd ht hsc hp hv hroot =>
      cases k with
      | zero => cases hroot
      | succ k =>
        replace hroot := parseRoot_run x hroot
        cases hroot with
        | element hn h =>
          intro c hc
          rcases elementRoot_kids (nd := nd.sees childSeen) he h c hc with h | ⟨_, h⟩ | ⟨_, h⟩
          · exact .inl h
          · exact .inr (.inl h)
          · exact .inr (.inr h)
        | complexType hn h => exact absurd (hn.symm.trans hname) (by decide)
        | simpleType hn h => exact absurd (hn.symm.trans hname) (by decide)

theorem facets_names {cs : List Nd} {fs : List Str × List Restriction} (h : parseFacets x cs = .ok fs) :
    ∀ c ∈ cs, c.name ∈ facetNames := by
  induction cs generalizing fs with
  | nil => nofun
  | cons c cs ih =>
    unfold parseFacets at h
    obtain ⟨f, h1, h⟩ := Res.bind_eq_ok.1 h
    obtain ⟨r, h2, h⟩ := Res.bind_eq_ok.1 h
    intro d hd
    rcases List.mem_cons.1 hd with rfl | hd
    · clear ih h h2 hd
      unfold parseFacet at h1
      unfold facetNames
      simp only [List.mem_cons, List.not_mem_nil, or_false]
      repeat' split at h1
      all_goals first | (cases h1; done) | (simp only [*, true_or, or_true])
    · exact ih h2 d hd

end
end Xsd
