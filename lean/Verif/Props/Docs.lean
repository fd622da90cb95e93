import Verif.Model.Docs
import Verif.Spec.Docs
import Verif.Props.Particles
import Verif.Lemmas.Legal
/-!
# Documentation (C42 for annotations, C62)
-/
namespace Xsd

section
variable {x : Ext}

/-! ## Text -/

theorem joinSpace_unwords (ws : List Str) : joinSpace ws = unwords ws := by
  unfold unwords
  induction ws with
  | nil => rfl
  | cons w ws ih =>
    cases ws with
    | nil => simp [joinSpace]
    | cons v ws => rw [joinSpace, ih]; simp [List.intersperse]; simp

theorem words_ne {s : Str} {ws : List Str} (h : Words x s ws) : ∀ w ∈ ws, w ≠ [] := by
  induction h with
  | none => simp
  | word hsp hw hww hend h ih => simpa using ⟨hw, ih⟩

theorem unwords_ne {ws : List Str} (h : ∀ w ∈ ws, w ≠ []) (hne : ws ≠ []) : unwords ws ≠ [] := by
  rw [← joinSpace_unwords]
  cases ws with
  | nil => exact absurd rfl hne
  | cons w ws =>
    have hw := h w (.head _)
    cases ws with
    | nil => exact hw
    | cons v ws => simp [joinSpace, hw]

/-! ## Annotations -/

theorem firstKid_find {n : Str} {nd k : Nd} : FirstKid n nd k ↔ nd.xsdKids.find? (fun c => c.name = n) = some k := by
  unfold FirstKid
  rw [List.find?_eq_some_iff_append]
  simp only [decide_eq_true_eq, Bool.not_eq_eq_eq_not, Bool.not_true, decide_eq_false_iff_not]
  constructor
  · rintro ⟨a, b, h1, h2, h3⟩; exact ⟨h2, a, b, h1, h3⟩
  · rintro ⟨h2, a, b, h1, h3⟩; exact ⟨a, b, h1, h2, h3⟩

theorem removeKid_find (n : Str) {ks : List Nd} (h : ∀ k ∈ ks, k.info.name.ns = some nsXsd) :
    (removeKid n ks).1 = ks.find? (fun c => c.name = n) := by
  induction ks with
  | nil => rfl
  | cons k ks ih =>
    simp only [removeKid, List.find?_cons]
    by_cases hk : k.name = n
    · rw [if_pos ((info_iff (h k (.head _))).2 hk)]; simp [hk]
    · rw [if_neg (fun hh => hk ((info_iff (h k (.head _))).1 hh))]
      simp only [hk, decide_false]
      exact ih (fun k hk => h k (.tail _ hk))

theorem xsdKids_ns {nd k : Nd} (h : k ∈ nd.xsdKids) : k.info.name.ns = some nsXsd := by
  obtain ⟨_, _, _, h⟩ := mem_xsdKids h
  exact h

theorem removeKid_kids (n : Str) (nd : Nd) : (removeKid n nd.xsdKids).1 = nd.child n := by
  rw [child_find]
  exact removeKid_find n (fun k h => xsdKids_ns h)

theorem text_some {nd : Nd} {t : Str} : nd.text = some t ↔ ∃ rest, nd.kids = .text t :: rest := by
  unfold Nd.text
  split
  · next s r h => rw [h]; simp
  · next h =>
    refine ⟨nofun, ?_⟩
    rintro ⟨r, hr⟩
    exact absurd hr (h _ _)

theorem docText_unique {nd : Nd} {t t' : Str} (h : DocText nd t) (h' : DocText nd t') : t = t' := by
  obtain ⟨an, d, r, h1, h2, h3⟩ := h
  obtain ⟨an', d', r', h1', h2', h3'⟩ := h'
  rw [firstKid_find] at h1 h2 h1' h2'
  obtain rfl := Option.some.inj (h1.symm.trans h1')
  obtain rfl := Option.some.inj (h2.symm.trans h2')
  rw [h3] at h3'
  cases h3'
  rfl

/-- What is parsed from the annotation of a declaration: nothing iff it has no documentation or an empty one. -/
theorem annotation_docs {nd : Nd} {docs : Option Str} (h : parseAnnotation x (nd.child c!"annotation") = .ok docs) :
    (∃ t, t ≠ [] ∧ DocText nd t ∧ docs = some (cleanupDocs x t)) ∨ ((∀ t, DocText nd t → t = []) ∧ docs = none) := by
  cases ha : nd.child c!"annotation" with
  | none =>
    rw [ha] at h
    cases h
    refine .inr ⟨?_, rfl⟩
    rintro t ⟨an, d, r, h1, _⟩
    rw [firstKid_find, ← child_find, ha] at h1
    cases h1
  | some an =>
    rw [ha] at h
    have h : parseAnnotation1 x an = .ok docs := h
    unfold parseAnnotation1 at h
    dsimp only at h
    obtain ⟨docs', hd, h⟩ := Res.bind_eq_ok.1 h
    obtain ⟨_, _, h⟩ := Res.bind_eq_ok.1 h
    obtain ⟨_, _, h⟩ := Res.bind_eq_ok.1 h
    cases h
    rw [removeKid_kids] at hd
    rw [child_find, ← firstKid_find] at ha
    cases hdd : an.child c!"documentation" with
    | none =>
      rw [hdd] at hd
      cases hd
      refine .inr ⟨?_, rfl⟩
      rintro t ⟨an', d, r, h1, h2, _⟩
      rw [firstKid_find] at h1 ha h2
      rw [ha] at h1
      cases h1
      rw [← child_find, hdd] at h2
      cases h2
    | some d =>
      rw [hdd] at hd
      obtain ⟨t, ht, hd⟩ := Res.bind_eq_ok.1 hd
      cases hd
      unfold Nd.tryText at ht
      cases htx : d.text with
      | none => rw [htx] at ht; cases ht
      | some t' =>
        rw [htx] at ht
        cases ht
        obtain ⟨rest, hk⟩ := text_some.1 htx
        rw [child_find, ← firstKid_find] at hdd
        have hdt : DocText nd t := ⟨an, d, rest, ha, hdd, hk⟩
        by_cases h0 : t = []
        · subst h0
          exact .inr ⟨fun t ht => docText_unique ht hdt, rfl⟩
        · rw [if_neg h0]
          exact .inl ⟨t, h0, hdt, rfl⟩

/-- C42: the documentation attribute for a parsed annotation. -/
theorem annotation_shown {nd : Nd} {docs : Option Str} (h : parseAnnotation x (nd.child c!"annotation") = .ok docs) :
    DocShown x nd (docAttr docs) := by
  rcases annotation_docs h with ⟨t, _, ht, rfl⟩ | ⟨hn, rfl⟩
  · have hw := (splitWs_words (x := x) t).1
    refine ⟨splitWs x [] t, .inl ⟨t, ht, hw⟩, ?_⟩
    unfold cleanupDocs
    rw [joinSpace_unwords]
    generalize splitWs x [] t = ws at hw
    by_cases h0 : ws = []
    · subst h0; exact .inl ⟨rfl, rfl⟩
    · refine .inr ⟨h0, ?_⟩
      cases hu : unwords ws with
      | nil => exact absurd hu (unwords_ne (words_ne hw) h0)
      | cons c cs => rfl
  · by_cases hh : ∃ t, DocText nd t
    · obtain ⟨t, ht⟩ := hh
      obtain rfl := hn t ht
      exact ⟨[], .inl ⟨[], ht, .none (by simp)⟩, .inl ⟨rfl, rfl⟩⟩
    · exact ⟨[], .inr ⟨fun t ht => hh ⟨t, ht⟩, rfl⟩, .inl ⟨rfl, rfl⟩⟩

theorem shown_kids {nd : Nd} {docs : Option Str} (h : parseAnnotation x (removeKid c!"annotation" nd.xsdKids).1 = .ok docs) :
    DocShown x nd (docAttr docs) := by
  rw [removeKid_kids] at h
  exact annotation_shown h

end

/-- **C42** in generated code: whatever annotation is accepted, the attribute has the words of the documentation, with one
space between them. -/
theorem C42_annotation (x : Ext) (nd : Nd) (docs : Option Str) (h : parseAnnotation x (nd.child c!"annotation") = .ok docs) :
    DocShown x nd (docAttr docs) := annotation_shown h

/-! ## Declarations -/

theorem attributesRun_docs {x : Ext} {parent : Name} {cs : List Nd} {s s' : PCtx} {as : List Attribute}
    (h : AttributesRun x parent cs s as s') :
    Each (fun c a => DocShown x c (docAttr a.docs)) (cs.filter (fun c => c.value c!"use" ≠ some c!"prohibited")) as := by
  induction h with
  | nil => exact .nil
  | skip c cs s s1 as s' h1 hs ih =>
    rw [List.filter_cons_of_neg (by simp [(C38 x c parent s s1 none h1).1.1 rfl])]
    exact ih
  | cons c cs s s1 a as s' h1 hs ih =>
    have hne : c.value c!"use" ≠ some c!"prohibited" := fun hp => by cases (C38 x c parent s s1 _ h1).1.2 hp
    rw [List.filter_cons_of_pos (by simpa using hne)]
    refine .cons ?_ ih
    cases parseAttribute_run x h1 with
    | some nameAttr docs content nd' s' hn hd => exact shown_kids hd

/-- C62, attributes: the fields for attributes show the documentation of their declarations. -/
theorem C62_attributes (x : Ext) (parent : Name) (cs : List Nd) (s s' : PCtx) (as : List Attribute)
    (h : parseAttributes x parent cs s = .ok (as, s')) :
    Each (fun c a => DocShown x c (docAttr a.docs)) (cs.filter (fun c => c.value c!"use" ≠ some c!"prohibited")) as :=
  attributesRun_docs (parseAttributes_run x h)

/-- The documentation that the field for a particle shows: that of the particle, but references and choices show none. -/
inductive FieldDoc (x : Ext) : Nd → Option Str → Prop where
  | element (c d) (hn : c.name = c!"element") (hr : c.attr c!"ref" = none) (h : DocShown x c d) : FieldDoc x c d
  | ref (c) (hn : c.name = c!"element") (hr : c.attr c!"ref" ≠ none) : FieldDoc x c none
  | choice (c) (hn : c.name = c!"choice") : FieldDoc x c none
  | sequence (c d) (hn : c.name = c!"sequence") (h : DocShown x c d) : FieldDoc x c d

theorem child_doc {x : Ext} {k : Nat} {c : Nd} {parent : Name} {s s' : PCtx} {l : Leaf} (hn : c.name = c!"element")
    (h : parseElementChild x k c parent s = .ok (l, s')) : FieldDoc x c (docAttr l.definition.docs) := by
  cases k with
  | zero => cases h
  | succ k =>
    cases parseElementChild_run x h with
    | ref mn mx a n s1 hmn hmx hr hp ht => exact .ref c hn (by rw [hr]; nofun)
    | typed mn mx na docs a c nd' s' hmn hmx hr hn' hd => exact .element _ _ hn hr (annotation_shown hd)
    | any mn mx na docs hmn hmx hr hn' hd => exact .element _ _ hn hr (annotation_shown hd)
    | inline mn mx na docs v root s1 hmn hmx hr hn' hd => exact .element _ _ hn hr (annotation_shown hd)

/-- C62, particles of a sequence (or `all`). -/
theorem C62_sequence (x : Ext) (k : Nat) (nd : Nd) (parent : Name) (s s' : PCtx) (ls : List Leaf)
    (h : parseSequence x k nd parent s = .ok (ls, s')) :
    Each (fun c l => FieldDoc x c (docAttr l.definition.docs)) nd.particles ls := by
  cases k with
  | zero => cases h
  | succ k =>
    refine leavesRun_each ?_ ?_ (parseSequence_run x h).2
    · intro c s s' h
      cases h with
      | annotation hn => exact hn
    · intro c hc s l s' h
      cases h with
      | element l s' hn h => exact ⟨child_doc hn h, by rw [hn]; decide⟩
      | choice mn mx variants s1 l s' hn hmn hmx h hl =>
        obtain ⟨_, _, _, _, _, rfl⟩ := addGroup_ok hl
        exact ⟨.choice c hn, by rw [hn]; decide⟩
      | sequence docs mn leaves s1 l s' hn hd hmn h hl =>
        obtain ⟨_, _, _, _, _, rfl⟩ := addGroup_ok hl
        exact ⟨.sequence c _ hn (annotation_shown hd), by rw [hn]; decide⟩

theorem Each.mapBoth {α β γ : Type} {R : α → β → Prop} {R' : α → γ → Prop} {f : β → γ} {as : List α} {bs : List β}
    (h : Each R as bs) (hr : ∀ a b, R a b → R' a (f b)) : Each R' as (bs.map f) := by
  induction h with
  | nil => exact .nil
  | cons h hs ih => exact .cons (hr _ _ h) ih

/-- The node in which the attributes of a complex type are declared: the type itself, or the extension in its content. -/
def AttrHost (nd host : Nd) : Prop :=
  (host = nd ∧ ∀ c ∈ nd.xsdKids, c.name ≠ c!"simpleContent" ∧ c.name ≠ c!"complexContent") ∨
  ∃ c ∈ nd.xsdKids, (c.name = c!"simpleContent" ∨ c.name = c!"complexContent") ∧ host ∈ c.xsdKids ∧ host.name = c!"extension"

/-- The attribute declarations of a node that are not prohibited. -/
def Nd.attrDecls (nd : Nd) : List Nd :=
  nd.xsdKids.filter (fun c => c.name = c!"attribute" ∧ c.value c!"use" ≠ some c!"prohibited")

/-- The documentation that the fields for the content of a complex type show: that of the particles of its sequence (or
`all`), if that has to occur once and can not repeat; otherwise none. -/
def ContentDoc (x : Ext) (nd : Nd) (ds : List (Option Str)) : Prop :=
  (∃ child ∈ nd.xsdKids, child.name ∈ [c!"sequence", c!"all"] ∧ MinOf child 1 ∧ (∃ m, MaxOf child m ∧ AtMostOnce m) ∧
    Each (FieldDoc x) child.particles ds) ∨
  ((∃ child ∈ nd.xsdKids, child.name ∈ [c!"sequence", c!"all"] ∧ ∃ n m, MinOf child n ∧ MaxOf child m ∧ (n ≠ 1 ∨ ¬ AtMostOnce m)) ∧
    ds = [none]) ∨
  ((∀ child ∈ nd.xsdKids, child.name ∉ [c!"sequence", c!"all"]) ∧ ∀ d ∈ ds, d = none)

theorem filter_removeKid {p : Nd → Bool} {n : Str} (hp : ∀ k : Nd, k.name = n → p k = false) (ks : List Nd) :
    (removeKid n ks).2.filter p = ks.filter p := by
  induction ks with
  | nil => rfl
  | cons k ks ih =>
    simp only [removeKid]
    split
    · next hk => rw [List.filter_cons_of_neg (by rw [hp k (name_of_info hk)]; decide)]
    · simp only [List.filter_cons, ih]

theorem removeKids_attrs {ks : List Nd} (h : ∀ k ∈ ks, k.info.name.ns = some nsXsd) :
    ((removeKids c!"attribute" ks).1).filter (fun c => c.value c!"use" ≠ some c!"prohibited") =
      ks.filter (fun c => c.name = c!"attribute" ∧ c.value c!"use" ≠ some c!"prohibited") := by
  unfold removeKids
  rw [List.filter_filter]
  apply List.filter_congr
  intro k hk
  rw [Bool.eq_iff_iff]
  simp only [Bool.and_eq_true, decide_eq_true_eq]
  rw [info_iff (h k hk)]
  exact And.comm

theorem sequenceOrAll_some {kids rest : List Nd} {child : Nd} (h : sequenceOrAll kids = (some child, rest)) :
    child ∈ kids ∧ child.name ∈ [c!"sequence", c!"all"] := by
  unfold sequenceOrAll at h
  split at h
  · next h' =>
    cases h
    exact ⟨removeKid_mem h', by rw [name_of_info (removeKid_some h').choose_spec.choose_spec.2.2.1]; decide⟩
  · exact ⟨removeKid_mem h, by rw [name_of_info (removeKid_some h).choose_spec.choose_spec.2.2.1]; decide⟩

theorem sequenceOrAll_none {kids : List Nd} (h : (sequenceOrAll kids).1 = none) :
    ∀ k ∈ kids, k.info.name.ns = some nsXsd → k.name ∉ [c!"sequence", c!"all"] := by
  unfold sequenceOrAll at h
  split at h
  · cases h
  · next h' =>
    intro k hk hns
    have h1 := (removeKid_none h').2 k hk
    have h2 := (removeKid_none (Prod.ext h rfl : removeKid c!"all" kids = (none, _))).2 k hk
    simp only [List.mem_cons, List.not_mem_nil, or_false, not_or]
    exact ⟨fun e => h1 ((info_iff hns).2 e), fun e => h2 ((info_iff hns).2 e)⟩

theorem filter_sequenceOrAll {p : Nd → Bool} (h1 : ∀ k : Nd, k.name = c!"sequence" → p k = false)
    (h2 : ∀ k : Nd, k.name = c!"all" → p k = false) (ks : List Nd) : (sequenceOrAll ks).2.filter p = ks.filter p := by
  unfold sequenceOrAll
  split
  · next h => rw [← filter_removeKid h1 ks, h]
  · exact filter_removeKid h2 ks

/-- Removed from the list with the annotation gone: the only other child. -/
theorem only_kid {n : Str} {nd child : Nd} (h : removeKid n (removeKid c!"annotation" nd.xsdKids).2 = (some child, [])) :
    child ∈ nd.xsdKids ∧ child.name = n ∧ ∀ k ∈ nd.xsdKids, k = child ∨ k.name = c!"annotation" := by
  refine ⟨removeKid_rest_mem (removeKid_mem h), name_of_info (removeKid_some h).choose_spec.choose_spec.2.2.1, ?_⟩
  intro k hk
  obtain ⟨a, b, e1, e2, _⟩ := removeKid_some h
  obtain ⟨rfl, rfl⟩ := List.append_eq_nil_iff.1 e2.symm
  cases ha : removeKid c!"annotation" nd.xsdKids with
  | mk o rest =>
    rw [ha] at e1
    cases o with
    | none =>
      have e1 : rest = [child] := e1
      rw [← (removeKid_none ha).1, e1] at hk
      exact .inl (by simpa using hk)
    | some an =>
      obtain ⟨a, b, f1, f2, f3, _⟩ := removeKid_some ha
      have e1 : rest = [child] := e1
      rw [f1] at hk
      rw [e1] at f2
      have hk : k = an ∨ k ∈ a ++ b := by
        simp only [List.mem_append, List.mem_cons] at hk ⊢
        rcases hk with h | h | h
        · exact .inr (.inl h)
        · exact .inl h
        · exact .inr (.inr h)
      rcases hk with rfl | hk
      · exact .inr (name_of_info f3)
      · rw [← f2] at hk
        exact .inl (by simpa using hk)

theorem particle_docs {x : Ext} {k : Nat} {nd : Nd} {parent : Name} {s s' : PCtx} {content : Option ElementContent} {rest : List Nd}
    (h : parseParticle x k (removeKid c!"annotation" nd.xsdKids).2 parent s = .ok ((content, rest), s')) :
    ContentDoc x nd (contentDocs content) := by
  have hno : ∀ {k}, k ∈ nd.xsdKids → (sequenceOrAll (removeKid c!"annotation" nd.xsdKids).2).1 = none →
      k.name ∉ [c!"sequence", c!"all"] := by
    intro k hk hn
    by_cases ha : k.name = c!"annotation"
    · rw [ha]; decide
    · have hns := xsdKids_ns hk
      refine sequenceOrAll_none hn k ?_ hns
      have hm : k ∈ nd.xsdKids.filter (fun k => k.name ≠ c!"annotation") := List.mem_filter.2 ⟨hk, by simpa using ha⟩
      rw [← filter_removeKid (n := c!"annotation") (by intro k hk; simp [hk])] at hm
      exact (List.mem_filter.1 hm).1
  cases k with
  | zero => cases h
  | succ k =>
    have hrun := parseParticle_run x h
    clear h
    cases hrun with
    | group child rest mn mx leaves s1 leaf s' hk hmn hmx h hg hl =>
      obtain ⟨h1, h2⟩ := sequenceOrAll_some hk
      obtain ⟨_, _, _, _, _, rfl⟩ := addGroup_ok hl
      exact .inr (.inl ⟨⟨child, removeKid_rest_mem h1, h2, mn, mx, parseMinOccurs_minOf hmn, parseMaxOccurs_maxOf hmx,
        hg.symm.imp id not_isVec.1⟩, rfl⟩)
    | sequence child rest mn mx leaves s' hk hmn hmx h hg =>
      obtain ⟨h1, h2⟩ := sequenceOrAll_some hk
      refine .inl ⟨child, removeKid_rest_mem h1, h2, ?_, ⟨mx, parseMaxOccurs_maxOf hmx, ?_⟩, ?_⟩
      · have : mn = 1 := Decidable.byContradiction (fun h => hg (.inr h))
        exact this ▸ parseMinOccurs_minOf hmn
      · exact Classical.byContradiction (fun h => hg (.inl (not_isVec.2 h)))
      · have hd := C62_sequence x k (child.sees occursSeen) parent s s' leaves h
        refine Each.mapBoth (bs := markUnordered child leaves) (R := fun c l => FieldDoc x c (docAttr l.definition.docs)) ?_ (fun _ _ h => h)
        unfold markUnordered
        split
        · exact hd.mapBoth (fun _ _ h => h)
        · exact hd
    | choice child rest variants s1 v hn hk h hv =>
      exact .inr (.inr ⟨fun c hc => hno hc hn, by simp [contentDocs, docAttr]⟩)
    | none hn hk => exact .inr (.inr ⟨fun c hc => hno hc hn, by simp [contentDocs]⟩)

/-- The attributes are parsed from the declarations in the node. -/
def DeclaredIn (x : Ext) (parent : Name) (host : Nd) (as : List Attribute) : Prop :=
  ∃ cs s s', AttributesRun x parent cs s as s' ∧ cs.filter (fun c => c.value c!"use" ≠ some c!"prohibited") = host.attrDecls

theorem complexType_parts (x : Ext) (k : Nat) (nd : Nd) (parent : Name) (s s' : PCtx) (r : Root)
    (h : parseComplexType x k nd parent s = .ok (r, s')) :
    DocShown x nd r.itemDoc ∧ ∃ d host, r = .element d ∧ AttrHost nd host ∧ ContentDoc x nd (contentDocs d.content) ∧
      DeclaredIn x parent host d.attributes := by
  have hwith : ∀ (d : ElementDef) (docs : Option Str), d.docs = none →
      (Root.element (d.withDocs docs)).itemDoc = docAttr docs ∧
      (d.withDocs docs).content = d.content ∧ (d.withDocs docs).attributes = d.attributes := by
    intro d docs hd
    unfold ElementDef.withDocs
    cases docs with
    | none => exact ⟨by simp [Root.itemDoc, Root.docs, hd], rfl, rfl⟩
    | some w => exact ⟨rfl, rfl, rfl⟩
  have hnoseq : ∀ {n : Str} {child : Nd}, n ∉ [c!"sequence", c!"all"] →
      removeKid n (removeKid c!"annotation" nd.xsdKids).2 = (some child, []) →
      ∀ c ∈ nd.xsdKids, c.name ∉ [c!"sequence", c!"all"] := by
    intro n child hn hk c hc
    obtain ⟨_, h2, h3⟩ := only_kid hk
    rcases h3 c hc with rfl | h
    · rw [h2]; exact hn
    · rw [h]; decide
  have hattrs : ∀ {cs : List Nd} {s s' : PCtx} {as : List Attribute} {host : Nd},
      AttributesRun x parent (removeKids c!"attribute" cs).1 s as s' → (∀ k ∈ cs, k.info.name.ns = some nsXsd) →
      cs.filter (fun c => c.name = c!"attribute" ∧ c.value c!"use" ≠ some c!"prohibited") = host.attrDecls →
      DeclaredIn x parent host as := by
    intro cs s s' as host ha hns he
    exact ⟨_, s, s', ha, (removeKids_attrs hns).trans he⟩
  cases k with
  | zero => cases h
  | succ k =>
    have hrun0 := parseComplexType_run x h
    clear h
    cases hrun0 with
    | simpleContent docs child d s' hm hp hd hk h =>
      obtain ⟨h1, h2, _⟩ := only_kid hk
      have key : ∃ ext ∈ child.xsdKids, ext.name = c!"extension" ∧ d.docs = none ∧ (∀ c ∈ contentDocs d.content, c = none) ∧
          DeclaredIn x parent ext d.attributes := by
        cases h with
        | named extension base n s1 attributes s' hp hr hb ht ha hk =>
          exact ⟨extension, removeKid_mem hr, name_of_info (removeKid_some hr).choose_spec.choose_spec.2.2.1, rfl,
            by simp [contentDocs, docAttr], hattrs ha (fun k hk => xsdKids_ns hk) rfl⟩
        | literal extension base n s1 attributes s' hp hr hb ht ha hk =>
          exact ⟨extension, removeKid_mem hr, name_of_info (removeKid_some hr).choose_spec.choose_spec.2.2.1, rfl,
            by simp [contentDocs, docAttr], hattrs ha (fun k hk => xsdKids_ns hk) rfl⟩
      obtain ⟨ext, e1, e2, e3, e4, e5⟩ := key
      obtain ⟨w1, w2, w3⟩ := hwith d docs e3
      exact ⟨w1 ▸ shown_kids hd, _, ext, rfl, .inr ⟨child, h1, .inl h2, e1, e2⟩,
        w2.symm ▸ .inr (.inr ⟨hnoseq (by decide) hk, e4⟩), w3.symm ▸ e5⟩
    | complexContent docs child d s' hm hp hd hn hk h =>
      obtain ⟨h1, h2, _⟩ := only_kid hk
      cases k with
      | zero => cases h
      | succ k =>
        have hrun := parseComplexContent_run x h
        clear h
        cases hrun with
        | mk extension base n s1 vl s2 attributes s' hp hr hb ht he ha hk' =>
          have hvl : ∀ l ∈ vl, l.definition.docs = none := by
            cases k with
            | zero => cases he
            | succ k =>
              have hrun := parseExtension_run x he
              clear he
              generalize (removeKid c!"sequence" extension.xsdKids).1 = o at hrun
              cases hrun <;> simp
          obtain ⟨w1, w2, w3⟩ := hwith ⟨attributes, some (if vl = [] then .leaf n ⟨.named n, [], none⟩ else
            .leaves (⟨s'.nodeName c!"base" false, ⟨.named n, [], none⟩, false, true, 1, .number 1⟩ :: vl)), false, none⟩ docs rfl
          refine ⟨w1 ▸ shown_kids hd, _, extension, rfl, .inr ⟨child, h1, .inr h2, removeKid_mem hr,
            name_of_info (removeKid_some hr).choose_spec.choose_spec.2.2.1⟩,
            w2.symm ▸ .inr (.inr ⟨hnoseq (by decide) hk, ?_⟩), w3.symm ▸ ?_⟩
          · by_cases hv : vl = []
            · simp [hv, contentDocs, docAttr]
            · rw [if_neg hv]
              intro d hd
              obtain ⟨l, hl, rfl⟩ := List.mem_map.1 hd
              rcases List.mem_cons.1 hl with rfl | hl
              · rfl
              · rw [hvl l hl]; rfl
          · refine hattrs ha (fun k hk => xsdKids_ns (removeKid_rest_mem hk)) ?_
            exact filter_removeKid (by intro k hk; simp [hk]) _
    | particle docs content rest s1 attributes s' hm hp hd hn hn2 h ha hk =>
      have hrest : (∀ k ∈ rest, k ∈ nd.xsdKids) ∧
          rest.filter (fun c => c.name = c!"attribute" ∧ c.value c!"use" ≠ some c!"prohibited") = nd.attrDecls := by
        have h0 : (removeKid c!"annotation" nd.xsdKids).2.filter
            (fun c => c.name = c!"attribute" ∧ c.value c!"use" ≠ some c!"prohibited") = nd.attrDecls :=
          filter_removeKid (by intro k hk; simp [hk]) _
        have hseq : ∀ {child r}, sequenceOrAll (removeKid c!"annotation" nd.xsdKids).2 = (some child, r) →
            (∀ k ∈ r, k ∈ nd.xsdKids) ∧
            r.filter (fun c => c.name = c!"attribute" ∧ c.value c!"use" ≠ some c!"prohibited") = nd.attrDecls := by
          intro child r hk
          constructor
          · intro k hm
            unfold sequenceOrAll at hk
            split at hk
            · next h' => cases hk; exact removeKid_rest_mem (removeKid_rest_mem (n := c!"sequence") (by rw [h']; exact hm))
            · exact removeKid_rest_mem (removeKid_rest_mem (n := c!"all") (by rw [hk]; exact hm))
          · rw [← h0, ← filter_sequenceOrAll (by intro k hk; simp [hk]) (by intro k hk; simp [hk]) (removeKid c!"annotation" nd.xsdKids).2, hk]
        cases k with
        | zero => cases h
        | succ k =>
          have hrun := parseParticle_run x h
          clear h
          cases hrun with
          | group child rest mn mx leaves s1 leaf s' hk => exact hseq hk
          | sequence child rest mn mx leaves s' hk => exact hseq hk
          | choice child rest variants s1 v hn hk =>
            refine ⟨fun k hm => removeKid_rest_mem (removeKid_rest_mem (n := c!"choice") (by rw [hk]; exact hm)), ?_⟩
            rw [← h0, ← filter_removeKid (n := c!"choice") (by intro k hk; simp [hk]) (removeKid c!"annotation" nd.xsdKids).2, hk]
          | none hn hk => exact ⟨fun k hm => removeKid_rest_mem hm, h0⟩
      refine ⟨shown_kids hd, _, nd, rfl, .inl ⟨rfl, ?_⟩, particle_docs h, hattrs ha (fun k hk => xsdKids_ns (hrest.1 k hk)) hrest.2⟩
      intro c hc
      have hns := xsdKids_ns hc
      by_cases han : c.name = c!"annotation"
      · rw [han]; decide
      · have hm : c ∈ (removeKid c!"annotation" nd.xsdKids).2 := by
          have hm : c ∈ nd.xsdKids.filter (fun k => k.name ≠ c!"annotation") := List.mem_filter.2 ⟨hc, by simpa using han⟩
          rw [← filter_removeKid (n := c!"annotation") (by intro k hk; simp [hk])] at hm
          exact (List.mem_filter.1 hm).1
        exact ⟨fun e => (removeKid_none (Prod.ext hn rfl)).2 c hm ((info_iff hns).2 e),
          fun e => (removeKid_none (Prod.ext hn2 rfl)).2 c hm ((info_iff hns).2 e)⟩

/-- C62, complex types: the struct shows the documentation of the type; then come the fields for its content, which show the
documentation of the particles; the fields for the attributes are last and show the documentation of their declarations. -/
theorem C62_complexType (x : Ext) (k : Nat) (nd : Nd) (parent : Name) (s s' : PCtx) (r : Root)
    (h : parseComplexType x k nd parent s = .ok (r, s')) :
    DocShown x nd r.itemDoc ∧ ∃ host cd ad, AttrHost nd host ∧ r.fieldDocs = cd ++ ad ∧ ContentDoc x nd cd ∧
      Each (DocShown x) host.attrDecls ad := by
  obtain ⟨h1, d, host, rfl, h2, h3, cs, s1, s2, h4, h5⟩ := complexType_parts x k nd parent s s' r h
  have := attributesRun_docs h4
  rw [h5] at this
  exact ⟨h1, host, _, _, h2, rfl, h3, this.mapBoth (fun _ _ h => h)⟩

theorem attributesRun_kept {x : Ext} {parent : Name} {cs : List Nd} {s s' : PCtx} {as : List Attribute}
    (h : AttributesRun x parent cs s as s') :
    Each (fun c a => some a.name.name = c.value c!"name" ∧ a.name.ns = .none ∧ a.default = c.value c!"default" ∧
        (a.isOptional = false ↔ c.value c!"use" = some c!"required"))
      (cs.filter (fun c => c.value c!"use" ≠ some c!"prohibited")) as := by
  induction h with
  | nil => exact .nil
  | skip c cs s s1 as s' h1 hs ih =>
    rw [List.filter_cons_of_neg (by simp [(C38 x c parent s s1 none h1).1.1 rfl])]
    exact ih
  | cons c cs s s1 a as s' h1 hs ih =>
    have hne : c.value c!"use" ≠ some c!"prohibited" := fun hp => by cases (C38 x c parent s s1 _ h1).1.2 hp
    rw [List.filter_cons_of_pos (by simpa using hne)]
    obtain ⟨d1, d2, d3, d4, _⟩ := (C38 x c parent s s1 _ h1).2.2 a rfl
    exact .cons ⟨d1, d2, d3, d4⟩ ih

/-- C38 for complex types: the type has an attribute for each declaration in it (or in the extension in its content) that is not
prohibited, in the order of the declarations. -/
theorem C38_complexType (x : Ext) (k : Nat) (nd : Nd) (parent : Name) (s s' : PCtx) (r : Root)
    (h : parseComplexType x k nd parent s = .ok (r, s')) :
    ∃ d host, r = .element d ∧ AttrHost nd host ∧
      Each (fun c a => some a.name.name = c.value c!"name" ∧ a.name.ns = .none ∧ a.default = c.value c!"default" ∧
        (a.isOptional = false ↔ c.value c!"use" = some c!"required")) host.attrDecls d.attributes := by
  obtain ⟨_, d, host, rfl, h2, _, cs, s1, s2, h4, h5⟩ := complexType_parts x k nd parent s s' r h
  have := attributesRun_kept h4
  rw [h5] at this
  exact ⟨d, host, rfl, h2, this⟩

theorem simpleType_doc {x : Ext} {nd : Nd} {s s' : PCtx} {r : Root} (h : SimpleTypeRun x nd s r s')
    (hr : ∀ ns, r ≠ .enum ns) : DocShown x nd r.itemDoc := by
  cases h with
  | mk docs restriction rest attr t s' fs hp hd =>
    by_cases hf : fs.1 = []
    · rw [if_pos hf]; exact shown_kids hd
    · rw [if_neg hf] at hr; exact absurd rfl (hr _)

/-- What is shown if the documentation of the element takes precedence over that of its type. -/
theorem withDocs_doc {x : Ext} {nd child : Nd} {docs : Option Str} {r : Root}
    (hd : parseAnnotation x (removeKid c!"annotation" nd.xsdKids).1 = .ok docs) (hr : ∀ ns, r.withDocs docs ≠ .enum ns)
    (hc : (∀ ns, r ≠ .enum ns) → DocShown x child r.itemDoc) :
    DocShown x nd (r.withDocs docs).itemDoc ∨ ((∀ t, DocText nd t → t = []) ∧ DocShown x child (r.withDocs docs).itemDoc) := by
  rw [removeKid_kids] at hd
  rcases annotation_docs hd with ⟨t, _, ht, rfl⟩ | ⟨hn, rfl⟩
  · left
    have := annotation_shown hd
    cases r with
    | enum ns => exact absurd rfl (hr ns)
    | _ => exact this
  · exact .inr ⟨hn, hc hr⟩

/-- C62: the item generated for a definition that is no enumeration shows the documentation of the definition; or, for an
element without documentation, that of its type. What is missing for the full property: enumerations, alternatives of a choice,
and references show no documentation (see `C62_false`). -/
theorem C62_partial (x : Ext) (k : Nat) (nd : Nd) (parent : Name) (s s' : PCtx) (r : Root)
    (h : parseRoot x k nd parent s = .ok (r, s')) (hr : ∀ ns, r ≠ .enum ns) :
    DocShown x nd r.itemDoc ∨
    (nd.name = c!"element" ∧ (∀ t, DocText nd t → t = []) ∧
      ∃ child ∈ nd.xsdKids, child.name ∈ [c!"simpleType", c!"complexType"] ∧ DocShown x child r.itemDoc) := by
  cases k with
  | zero => cases h
  | succ k =>
    have hrun := parseRoot_run x h
    clear h
    cases hrun with
    | element hn h =>
      cases k with
      | zero => cases h
      | succ k =>
        have hrun := parseElementRoot_run x h
        clear h
        cases hrun with
        | typed docs a c nd' s' hd => exact .inl (shown_kids hd)
        | complexType docs child root s' hd ht hp hk h =>
          obtain ⟨h1, h2, _⟩ := only_kid hk
          rcases withDocs_doc hd hr (fun _ => (C62_complexType x k child parent s _ root h).1) with h | ⟨h, h'⟩
          · exact .inl h
          · exact .inr ⟨hn, h, child, h1, by rw [h2]; decide, h'⟩
        | simpleType docs child root s' hd ht hp hnk hk h =>
          obtain ⟨h1, h2, _⟩ := only_kid hk
          rcases withDocs_doc hd hr (fun hr => simpleType_doc h hr) with h | ⟨h, h'⟩
          · exact .inl h
          · exact .inr ⟨hn, h, child, h1, by rw [h2]; decide, h'⟩
    | complexType hn h => exact .inl (C62_complexType x k nd parent s _ r h).1
    | simpleType hn h => exact .inl (simpleType_doc h hr)

end Xsd
